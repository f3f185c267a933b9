import Verif.Model.ExampleRun
import Verif.Props.Options
import Mathlib.Tactic.Linarith

/-!
# The example programs from their options to the end (C123)
-/

set_option autoImplicit false

namespace Ade
namespace ExampleRun

/-- `text` is the texts `ts`, separated by commas. -/
def Listed (text : List Char) (ts : List (List Char)) : Prop :=
  ts ≠ [] ∧ (∀ t ∈ ts, ',' ∉ t) ∧ text = List.intercalate [','] ts

theorem split_pure (t : List Char) (h : ',' ∉ t) : splitComma t = [t] := by
  induction t with
  | nil => rfl
  | cons c t ih =>
    simp only [List.mem_cons, not_or] at h
    unfold splitComma
    rw [if_neg (Ne.symm h.1), ih h.2]

theorem split_comma (t rest : List Char) (h : ',' ∉ t) : splitComma (t ++ ',' :: rest) = t :: splitComma rest := by
  induction t with
  | nil => simp [splitComma]
  | cons c t ih =>
    simp only [List.mem_cons, not_or] at h
    rw [List.cons_append]
    conv_lhs => unfold splitComma
    rw [if_neg (Ne.symm h.1), ih h.2]

theorem split_listed (ts : List (List Char)) : ∀ text, Listed text ts → splitComma text = ts := by
  induction ts with
  | nil => intro _ h; exact absurd rfl h.1
  | cons t ts ih =>
    rintro text ⟨_, h2, rfl⟩
    cases ts with
    | nil => simpa using split_pure t (h2 t (by simp))
    | cons u us =>
      have h3 : List.intercalate [','] (t :: u :: us) = t ++ ',' :: List.intercalate [','] (u :: us) := by
        simp [List.intercalate]
      rw [h3, split_comma t _ (h2 t (by simp)), ih _ ⟨by simp, fun x hx => h2 x (by simp [hx]), rfl⟩]

theorem listed_split (text : List Char) : Listed text (splitComma text) := by
  induction text with
  | nil => exact ⟨by simp [splitComma], by simp [splitComma], by simp [splitComma, List.intercalate]⟩
  | cons c text ih =>
    unfold splitComma
    split_ifs with hc
    · subst hc
      refine ⟨by simp, ?_, ?_⟩
      · intro t ht
        rcases List.mem_cons.1 ht with rfl | ht
        · simp
        · exact ih.2.1 t ht
      · conv_lhs => rw [ih.2.2]
        cases h : splitComma text with
        | nil => exact absurd h ih.1
        | cons p ps => simp [List.intercalate]
    · cases h : splitComma text with
      | nil => exact absurd h ih.1
      | cons p ps =>
        have h2 := ih.2.1
        have h3 := ih.2.2
        rw [h] at h2 h3
        refine ⟨by simp, ?_, ?_⟩
        · intro t ht
          rcases List.mem_cons.1 ht with rfl | ht
          · simp only [List.mem_cons, not_or]
            exact ⟨Ne.symm hc, h2 p (by simp)⟩
          · exact h2 t (by simp [ht])
        · conv_lhs => rw [h3]
          cases ps <;> simp [List.intercalate]

/-- `text` is a list of the numbers `fs`, separated by commas. -/
def Numbers (env : Env) (text : List Char) (fs : List PyFloat) : Prop :=
  ∃ ts, Listed text ts ∧ List.Forall₂ (fun t f => env.float t = some f) ts fs

theorem parseF_iff (env : Env) (text : List Char) (fs : List PyFloat) :
    parseF env text = some fs ↔ Numbers env text fs := by
  have key : ∀ (ts : List (List Char)) (fs : List PyFloat),
      ts.mapM env.float = some fs ↔ List.Forall₂ (fun t f => env.float t = some f) ts fs := by
    intro ts
    induction ts with
    | nil => intro fs; cases fs <;> simp
    | cons t ts ih =>
      intro fs
      rw [List.mapM_cons]
      cases h : env.float t with
      | none =>
        simp only [Option.bind_eq_bind, Option.bind_none, reduceCtorEq, false_iff]
        intro h2
        cases h2 with
        | cons a b => rw [h] at a; exact absurd a (by simp)
      | some f =>
        cases h2 : ts.mapM env.float with
        | none =>
          simp only [Option.bind_eq_bind, Option.bind_some, Option.bind_none, reduceCtorEq, false_iff]
          intro h3
          cases h3 with
          | cons a b => rw [(ih _).2 b] at h2; exact absurd h2 (by simp)
        | some gs =>
          simp only [Option.bind_eq_bind, Option.bind_some, Option.pure_def, Option.some.injEq]
          constructor
          · rintro rfl
            exact .cons h ((ih gs).1 h2)
          · intro h3
            cases h3 with
            | cons a b =>
              rw [h] at a
              rw [(ih _).2 b] at h2
              simp only [Option.some.injEq] at a h2
              rw [a, h2]
  unfold parseF
  rw [key]
  constructor
  · intro h
    exact ⟨_, listed_split text, h⟩
  · rintro ⟨ts, h1, h2⟩
    rw [split_listed ts text h1]
    exact h2

theorem numbers_ne {env : Env} {text : List Char} {fs : List PyFloat} (h : Numbers env text fs) : fs ≠ [] := by
  obtain ⟨ts, h1, h2⟩ := h
  rintro rfl
  cases h2
  exact h1.1 rfl

/-- The crossover rate is accepted. -/
def RateOk (x : PyFloat) : Prop := x = .nan ∨ ∃ q : ℚ, 0 ≤ q ∧ q ≤ 1 ∧ x = .fin q

/-- The attributes for given keywords. -/
abbrev kwOf (k : Kind) (o : Opts) (fs : List PyFloat) : String → Option Options.Val :=
  fun name => (keywords k o fs).lookup name

theorem kw_CR (k : Kind) (o : Opts) (fs : List PyFloat) : kwOf k o fs "CR" = some (.num o.CR) := by
  cases k <;> simp [kwOf, keywords]

theorem construct_ok (k : Kind) (o : Opts) (fs : List PyFloat) :
    (∃ s, Options.construct (kwOf k o fs) (fun _ => none) = .ok s) ↔ RateOk o.CR :=
  (Options.C90_crossover_rate _ _ _ (kw_CR k o fs)).2

/-- C123: the program ends exactly if it has its data, the crossover rate is between 0 and 1 (or NaN), the option for F is a
list of numbers, and either the setup got aborted or there are at least two numbers and the run ends. -/
theorem C123_stops_iff (k : Kind) (env : Env) (o : Opts) :
    (program k env o).stopped = true ↔
      env.data = true ∧ RateOk o.CR ∧
        ∃ fs, Numbers env o.F fs ∧ (env.aborted = true ∨ fs.length ≠ 1 ∧ env.runs = true) := by
  unfold program
  cases hd : env.data with
  | false => simp
  | true =>
    simp only [Bool.not_true, Bool.false_eq_true, if_false, true_and]
    cases hp : parseF env o.F with
    | none =>
      simp only [Bool.false_eq_true, false_iff, not_and]
      rintro _ ⟨fs, h1, _⟩
      rw [(parseF_iff _ _ _).2 h1] at hp
      exact absurd hp (by simp)
    | some fs =>
      have hn := (parseF_iff _ _ _).1 hp
      have hu : ∀ gs, Numbers env o.F gs → gs = fs := fun gs hg => by
        have := (parseF_iff _ _ _).2 hg
        rw [hp] at this
        exact (Option.some.inj this).symm
      have hlen : (fs.length < 2) ↔ fs.length = 1 := by
        have : fs.length ≠ 0 := fun h => numbers_ne hn (List.length_eq_zero_iff.1 h)
        omega
      have hok := construct_ok k o fs
      simp only
      cases hc : Options.construct (fun name => (keywords k o fs).lookup name) fun _ => none with
      | error e =>
        simp only [Bool.false_eq_true, false_iff, not_and]
        intro hr
        obtain ⟨s, hs⟩ := hok.2 hr
        have hs' : Options.construct (fun name => (keywords k o fs).lookup name) (fun _ => none) = .ok s := hs
        rw [hc] at hs'
        exact absurd hs' (by simp)
      | ok s =>
        have hr : RateOk o.CR := hok.1 ⟨s, hc⟩
        simp only
        constructor
        · intro h
          refine ⟨hr, fs, hn, ?_⟩
          split_ifs at h with h1 h2 h3
          · exact .inl h1
          · exact .inr ⟨fun h4 => h2 (hlen.2 h4), by simpa using h3⟩
        · rintro ⟨_, gs, hg, h⟩
          rw [hu gs hg] at h
          rcases h with h | ⟨h1, h2⟩
          · simp [h]
          · split_ifs with h3 h4 h5
            · rfl
            · exact absurd (hlen.1 h4) h1
            · simp [h2] at h5
            · rfl

/-- A text that is no list of numbers for `fs` to be read from. -/
def NoNumbers (env : Env) (text : List Char) : Prop := ∀ fs, ¬ Numbers env text fs

/-- C123, negation: a program that cannot get its data, or is given an impossible crossover rate, or something that is not
a list of numbers or a single number for F, does not end: nobody stops the reactor.  Only with a single number
it ends if the setup got aborted. -/
theorem C123_hangs (k : Kind) (env : Env) (o : Opts)
    (h : env.data = false ∨ ¬ RateOk o.CR ∨ NoNumbers env o.F ∨
      env.aborted = false ∧ ∃ f, Numbers env o.F [f]) : (program k env o).stopped = false := by
  rw [← Bool.not_eq_true, C123_stops_iff]
  rintro ⟨h1, h2, fs, h3, h4⟩
  rcases h with h | h | h | ⟨h5, f, h6⟩
  · rw [h] at h1; exact absurd h1 (by simp)
  · exact h h2
  · exact h fs h3
  · have : fs = [f] := by
      have a := (parseF_iff _ _ _).2 h3
      have b := (parseF_iff _ _ _).2 h6
      rw [a] at b
      exact Option.some.inj b
    subst this
    rcases h4 with h4 | ⟨h4, _⟩
    · rw [h5] at h4; exact absurd h4 (by simp)
    · exact h4 rfl

/-- C123, what does hold: given its data, a possible crossover rate and two numbers for F, a program ends if its run does. -/
theorem C123_stops_partial (k : Kind) (env : Env) (o : Opts) (x y : PyFloat) (hd : env.data = true)
    (hr : RateOk o.CR) (hF : Numbers env o.F [x, y]) (he : env.aborted = true ∨ env.runs = true) :
    (program k env o).stopped = true :=
  (C123_stops_iff k env o).2 ⟨hd, hr, _, hF, he.imp id fun h => ⟨by simp, h⟩⟩

/-- C123: differential evolution is performed with what the options ask for: crossover rate, range of F, number of
generations, kind of base, adaptive mode, whether to go on to the bitter end; the thermistor program gives up after twelve
generations and passes on `--xSSE`. -/
theorem C123_conduct (k : Kind) (env : Env) (o : Opts) (x y : PyFloat) (hd : env.data = true)
    (ha : env.aborted = false) (hr : RateOk o.CR) (hF : Numbers env o.F [x, y]) :
    (program k env o).conduct = some
      { CR := .num o.CR
        F := .pair x y
        adaptive := .bool !o.notAdaptive
        maxiter := .num (.fin o.maxiter)
        randomBase := .bool (if k = .thermistor then o.base else !o.base)
        goalSSE := .none
        bitterEnd := .bool o.bitterEnd
        dwellByGrave := .num (.fin (if k = .thermistor then 12 else 5))
        xSSE := .bool (if k = .thermistor then o.xSSE else false) } := by
  obtain ⟨s, hs⟩ := (construct_ok k o [x, y]).2 hr
  have hs' : Options.construct (fun name => (keywords k o [x, y]).lookup name) (fun _ => none) = .ok s := hs
  have hc : (program k env o).conduct = some (Options.conduct s) := by
    unfold program
    rw [hd, (parseF_iff _ _ _).2 hF]
    simp only [Bool.not_true, Bool.false_eq_true, if_false, hs', ha]
    rw [if_neg (by simp)]
    split_ifs <;> rfl
  rw [hc]
  have given : ∀ name dflt v, (name, dflt) ∈ Options.documented → (keywords k o [x, y]).lookup name = some v →
      v ≠ .none → Options.lookup s name = v := fun name dflt v h1 h2 h3 =>
    Options.C90_given _ _ s hs' name dflt v h1 h2 h3
  have dflt : ∀ name d, (name, d) ∈ Options.documented → (keywords k o [x, y]).lookup name = none →
      Options.lookup s name = d := fun name d h1 h2 =>
    Options.C90_default _ _ s hs' name d h1 (.inl ⟨h2, rfl⟩)
  unfold Options.conduct
  cases k
  · rw [given "CR" _ _ (by simp [Options.documented]; rfl) (by simp [keywords]; rfl) (by simp),
      given "F" _ (.pair x y) (by simp [Options.documented]; rfl) (by simp [keywords, fVal]; rfl) (by simp),
      given "adaptive" _ _ (by simp [Options.documented]; rfl) (by simp [keywords]; rfl) (by simp),
      given "maxiter" _ _ (by simp [Options.documented]; rfl) (by simp [keywords]; rfl) (by simp),
      given "randomBase" _ _ (by simp [Options.documented]; rfl) (by simp [keywords]; rfl) (by simp),
      given "bitterEnd" _ _ (by simp [Options.documented]; rfl) (by simp [keywords]; rfl) (by simp),
      given "dwellByGrave" _ _ (by simp [Options.documented]; rfl) (by simp [keywords]; rfl) (by simp),
      given "xSSE" _ _ (by simp [Options.documented]; rfl) (by simp [keywords]; rfl) (by simp),
      dflt "goalSSE" _ (by simp [Options.documented]; rfl) (by simp [keywords])]
    simp
  · rw [given "CR" _ _ (by simp [Options.documented]; rfl) (by simp [keywords]; rfl) (by simp),
      given "F" _ (.pair x y) (by simp [Options.documented]; rfl) (by simp [keywords, fVal]; rfl) (by simp),
      given "adaptive" _ _ (by simp [Options.documented]; rfl) (by simp [keywords]; rfl) (by simp),
      given "maxiter" _ _ (by simp [Options.documented]; rfl) (by simp [keywords]; rfl) (by simp),
      given "randomBase" _ _ (by simp [Options.documented]; rfl) (by simp [keywords]; rfl) (by simp),
      given "bitterEnd" _ _ (by simp [Options.documented]; rfl) (by simp [keywords]; rfl) (by simp),
      dflt "dwellByGrave" _ (by simp [Options.documented]; rfl) (by simp [keywords]),
      dflt "xSSE" _ (by simp [Options.documented]; rfl) (by simp [keywords]),
      dflt "goalSSE" _ (by simp [Options.documented]; rfl) (by simp [keywords])]
    simp

/-- The number of parameters of each problem. -/
def parameters : Kind → ℤ
  | .thermistor => 28
  | .voc => 10

/-- C123: the population has as many members per parameter as asked for, but 20 to 500 members; zero stands for the
default of ten per parameter. -/
theorem C123_size (k : Kind) (env : Env) (o : Opts) (hd : env.data = true) :
    (program k env o).size =
      some (max 20 (min ((if o.popsize = 0 then 10 else o.popsize) * parameters k) 500)) := by
  have hdim : (dimension k : ℤ) = parameters k := by cases k <;> decide +kernel
  have : (program k env o).size = some (Population.sizeOf (some o.popsize) (dimension k)) := by
    unfold program
    rw [hd]
    simp only [Bool.not_true, Bool.false_eq_true, if_false]
    split
    · rfl
    · split
      · rfl
      · split_ifs <;> rfl
  rw [this]
  unfold Population.sizeOf
  rw [hdim]

/-- C123, negation: the option `--uniform` makes no difference whatever, and the population is never set up with uniform
variates. -/
theorem C123_uniform_ignored (k : Kind) (env : Env) (o : Opts) (u : Bool) :
    program k env { o with uniform := u } = program k env o ∧ (program k env o).uniform ≠ some true := by
  refine ⟨?_, ?_⟩
  · unfold program
    cases hd : env.data with
    | false => rfl
    | true =>
      simp only [Bool.not_true, Bool.false_eq_true, if_false]
      cases parseF env o.F with
      | none => rfl
      | some F =>
        simp only
        have h := Options.C112_uniform_ignored (fun name => (keywords k { o with uniform := u } F).lookup name)
          (fun name => (keywords k o F).lookup name) (fun _ => none) (fun _ => none)
          (by
            intro name hn
            have : (name == "uniform") = false := by simpa using hn
            cases k <;> simp only [keywords, List.lookup_cons, this]) (fun _ _ => rfl)
        have hsv : save k { o with uniform := u } = save k o := by cases k <;> rfl
        generalize Options.construct (fun name => (keywords k { o with uniform := u } F).lookup name)
          (fun _ => none) = a at *
        generalize Options.construct (fun name => (keywords k o F).lookup name) (fun _ => none) = b at *
        cases a with
        | error e =>
          cases b with
          | error e' => rfl
          | ok s' => simp [Except.map] at h
        | ok s =>
          cases b with
          | error e' => simp [Except.map] at h
          | ok s' =>
            simp only [Except.map, Except.ok.injEq] at h
            simp only [h, hsv]
  · unfold program
    cases hd : env.data with
    | false => simp
    | true =>
      simp only [Bool.not_true, Bool.false_eq_true, if_false]
      split
      · simp
      · split
        · simp
        · split_ifs <;> simp

/-- C123: the thermistor program writes the population to the file of option `--pickle` exactly if it ends and the name is
not of one character (or none); the battery program never writes one. -/
theorem C123_saved (k : Kind) (env : Env) (o : Opts) (path : List Char) :
    (program k env o).saved = some path ↔
      k = .thermistor ∧ path = o.pickle ∧ 2 ≤ path.length ∧ (program k env o).stopped = true := by
  have hs : save k o = some path ↔ k = .thermistor ∧ path = o.pickle ∧ 2 ≤ path.length := by
    cases k
    · simp only [save]
      split_ifs with h
      · simp only [Option.some.injEq, true_and]
        constructor
        · rintro rfl; exact ⟨rfl, h⟩
        · rintro ⟨rfl, _⟩; rfl
      · simp only [false_iff, not_and, true_and]
        rintro rfl
        omega
    · simp [save]
  unfold program
  cases hd : env.data with
  | false => simp
  | true =>
    simp only [Bool.not_true, Bool.false_eq_true, if_false]
    split
    · simp
    · split
      · simp
      · split_ifs
        · simp [hs]
        · simp
        · simp
        · simp [hs]

/-- C123, negation: not only `-` stands for writing no file: the population is not saved to any file with a name of one
character. -/
theorem C123_short_name (k : Kind) (env : Env) (o : Opts) (c : Char) (h : o.pickle = [c]) :
    (program k env o).saved = none := by
  cases hs : (program k env o).saved with
  | none => rfl
  | some path =>
    obtain ⟨_, h1, h2, _⟩ := (C123_saved k env o path).1 hs
    rw [h1, h] at h2
    simp at h2

/-- C123: without options, the two programs have 280 and 200 members and at most 2000 and 800 generations, with a crossover rate of
0.8 and F between 0.5 and 1, in adaptive mode and with an early stop; the base is the best
individual for the thermistor and a random one for the battery; only the thermistor program saves its population, to `~/ade-population.dat`. -/
theorem C123_defaults (k : Kind) (env : Env) (hd : env.data = true) (ha : env.aborted = false) (hr : env.runs = true)
    (h1 : env.float "0.5".toList = some (.fin (1 / 2))) (h2 : env.float "1.0".toList = some (.fin 1)) :
    (program k env (defaults k)).size = some (if k = .thermistor then 280 else 200) ∧
      (program k env (defaults k)).stopped = true ∧
      (program k env (defaults k)).saved = (if k = .thermistor then some "~/ade-population.dat".toList else none) ∧
      ∃ c, (program k env (defaults k)).conduct = some c ∧ c.CR = .num (.fin (4 / 5)) ∧ c.F = .pair (.fin (1 / 2)) (.fin 1) ∧
        c.maxiter = .num (.fin (if k = .thermistor then 2000 else 800)) ∧ c.adaptive = .bool true ∧ c.bitterEnd = .bool false ∧
        c.randomBase = .bool (k = .voc) ∧ c.xSSE = .bool false := by
  have hF : Numbers env (defaults k).F [.fin (1 / 2), .fin 1] :=
    ⟨["0.5".toList, "1.0".toList], ⟨by decide, by decide, by cases k <;> decide⟩, .cons h1 (.cons h2 .nil)⟩
  have hR : RateOk (defaults k).CR := .inr ⟨4 / 5, by norm_num, by norm_num, by cases k <;> rfl⟩
  have hs := C123_stops_partial k env (defaults k) _ _ hd hR hF (.inr hr)
  refine ⟨?_, hs, ?_, _, C123_conduct k env (defaults k) _ _ hd ha hR hF, ?_, rfl, ?_, ?_, ?_, ?_, ?_⟩
  · rw [C123_size k env _ hd]
    cases k <;> decide +kernel
  · cases k with
    | thermistor => exact (C123_saved _ _ _ _).2 ⟨rfl, rfl, by decide, hs⟩
    | voc =>
      cases h : (program .voc env (defaults .voc)).saved with
      | none => rfl
      | some p => exact absurd ((C123_saved _ _ _ _).1 h).1 (by decide)
  all_goals cases k <;> rfl

/-- Enough of `float`. -/
def exFloat : List Char → Option PyFloat := fun t =>
  if t = "0.5".toList then some (.fin (1 / 2)) else if t = "1.0".toList then some (.fin 1) else none

/-- Everything goes well. -/
def exEnv : Env := ⟨exFloat, true, false, true⟩

theorem exNumbers (k : Kind) : Numbers exEnv (defaults k).F [.fin (1 / 2), .fin 1] :=
  ⟨["0.5".toList, "1.0".toList], by cases k <;> exact ⟨by decide, by decide, by decide⟩,
    .cons (by decide +kernel) (.cons (by decide +kernel) .nil)⟩

theorem exRate (k : Kind) : RateOk (defaults k).CR := by
  cases k <;> exact .inr ⟨4 / 5, by norm_num, by norm_num, rfl⟩

example := C123_stops_partial .voc exEnv (defaults .voc) _ _ rfl (exRate _) (exNumbers _) (.inr rfl)

example := C123_conduct .thermistor exEnv (defaults .thermistor) _ _ rfl rfl (exRate _) (exNumbers _)

example := C123_defaults .voc exEnv rfl rfl rfl (by decide +kernel) (by decide +kernel)

example := C123_size .thermistor exEnv (defaults .thermistor) rfl

/-- A crossover rate of two. -/
example := C123_hangs .voc exEnv { defaults .voc with CR := .fin 2 } (.inr (.inl (by
  rintro (h | ⟨q, _, h1, h2⟩)
  · simp at h
  · simp only [PyFloat.fin.injEq] at h2
    rw [← h2] at h1
    norm_num at h1)))

/-- A single number. -/
example := C123_hangs .voc exEnv { defaults .voc with F := "0.5".toList } (.inr (.inr (.inr ⟨rfl, .fin (1 / 2),
  ["0.5".toList], ⟨by decide, by decide, by decide⟩, .cons (by decide +kernel) .nil⟩)))

example := C123_short_name .thermistor exEnv { defaults .thermistor with pickle := ['p'] } 'p' rfl

/-- The two programs without options: 280 and 200 members; the base is the best individual in one and a random one in the
other; one of them saves its population. -/
example : let t := program .thermistor exEnv (defaults .thermistor); let v := program .voc exEnv (defaults .voc)
    t.size = some 280 ∧ v.size = some 200 ∧ t.stopped = true ∧ v.stopped = true ∧
    t.conduct.map (·.randomBase) = some (.bool false) ∧ v.conduct.map (·.randomBase) = some (.bool true) ∧
    t.saved = some "~/ade-population.dat".toList ∧ v.saved = none := by decide +kernel

end ExampleRun
end Ade
