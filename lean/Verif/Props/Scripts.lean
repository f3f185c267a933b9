import Verif.Model.Scripts
import Verif.Props.Figures
import Mathlib.Data.List.Basic

/-!
# Properties C102, C103, C104: the parameter viewer, extraction of the examples, command lines
-/

set_option autoImplicit false

namespace Ade

/-! ## C102: pv -/

namespace Pv

open Figures

/-- Figures of pairs asked for: none without `-N`, one for each name, or one if no names are given. -/
def pairFigs (a : An) (R : ℕ → ℕ → ℚ) (N : ℕ) (names : List String) : List (Option (List (ℕ × ℕ × ℚ))) :=
  if N = 0 then []
  else if names = [] then [plotCorrelated a.names R none N]
  else names.map fun n => plotCorrelated a.names R (some n) N

theorem plotCorrelated_isSome (names : List String) (R : ℕ → ℕ → ℚ) (name : Option String) (N : ℕ) :
    (plotCorrelated names R name N).isSome = true ↔ 2 ≤ names.length := by
  rw [plotCorrelated]
  generalize names.length = l
  have h : l * (l - 1) / 2 = 0 ↔ l < 2 := by
    constructor
    · intro h
      by_contra hc
      obtain ⟨m, rfl⟩ : ∃ m, l = m + 2 := ⟨l - 2, by omega⟩
      have : 2 ≤ (m + 2) * (m + 2 - 1) := by
        have : m + 2 - 1 = m + 1 := by omega
        rw [this]; nlinarith
      omega
    · intro h
      rcases (by omega : l = 0 ∨ l = 1) with rfl | rfl <;> rfl
  split <;> rename_i hz
  · rw [h] at hz; simp; omega
  · rw [h] at hz; simp; omega

theorem namesLoop_two (a : An) (R : ℕ → ℕ → ℚ) (N : ℕ) (h : 2 ≤ a.names.length) (names : List String) (r : List Fig × Bool)
    (hne : names ≠ [] ∨ r.2 = true) :
    namesLoop a R N names r = (r.1 ++ (names.map fun n => plotCorrelated a.names R (some n) N).filterMap (·.map Fig.pairs), true) := by
  induction names generalizing r with
  | nil =>
    rcases r with ⟨f, b⟩
    simp at hne
    simp [namesLoop, hne]
  | cons n names ih =>
    rcases r with ⟨f, b⟩
    obtain ⟨ps, hps⟩ := Option.isSome_iff_exists.1 ((plotCorrelated_isSome a.names R (some n) N).2 h)
    rw [namesLoop, hps]
    dsimp only
    rw [ih _ (Or.inr rfl)]
    simp [hps]

/-- C102 (what holds): for a population with at least two parameters, the program shows the figures of the parameters named
(of all, if none are named) if `-r` is given, followed by those of the most correlated pairs if `-N` is given; if neither
is given, it says that nothing was done. -/
theorem C102_shown_partial (file : String) (names : List String) (o : Opts) (a : An) (R : ℕ → ℕ → ℚ)
    (h2 : 2 ≤ a.names.length) :
    (o.maxRatio = 0 → o.N = 0 → main (file :: names) o a R = .noAnalysis) ∧
    (o.maxRatio = 0 → o.N ≠ 0 →
      main (file :: names) o a R = .shown ((pairFigs a R o.N names).filterMap (·.map Fig.pairs))) ∧
    (∀ figs, o.maxRatio ≠ 0 → plot a (names.map NameArg.name) o.inPop o.maxRatio = some figs →
      main (file :: names) o a R =
        .shown (figs.map (fun f => Fig.sse f.1 f.2) ++ (pairFigs a R o.N names).filterMap (·.map Fig.pairs))) := by
  have hc : ∀ r : List Fig × Bool, o.N ≠ 0 →
      correlations a R o.N names r = (r.1 ++ (pairFigs a R o.N names).filterMap (·.map Fig.pairs), true) := by
    intro r hN
    unfold correlations pairFigs
    rw [if_neg hN, if_neg hN]
    cases names with
    | nil =>
      obtain ⟨ps, hps⟩ := Option.isSome_iff_exists.1 ((plotCorrelated_isSome a.names R none o.N).2 h2)
      simp [hps]
    | cons n ns =>
      dsimp only
      rw [namesLoop_two a R o.N h2 (n :: ns) r (Or.inl (by simp)), if_neg (by simp)]
  refine ⟨?_, ?_, ?_⟩
  · intro hr hN
    simp [main, hr, correlations, hN, finish]
  · intro hr hN
    unfold main
    dsimp only
    rw [if_pos hr, hc _ hN]
    simp [finish]
  · intro figs hr hf
    unfold main
    dsimp only
    rw [if_neg hr, hf]
    dsimp only
    by_cases hN : o.N = 0
    · simp [correlations, hN, finish, pairFigs]
    · rw [hc _ hN]
      simp [finish]

/-- C102: without a file it says so, whatever the options. -/
theorem C102_no_file (o : Opts) (a : An) (R : ℕ → ℕ → ℚ) : main [] o a R = .noFile := rfl

theorem namesLoop_one (a : An) (R : ℕ → ℕ → ℚ) (N : ℕ) (h : a.names.length < 2) (names : List String) (r : List Fig × Bool)
    (hne : names ≠ []) : namesLoop a R N names r = (r.1, false) := by
  induction names generalizing r with
  | nil => exact absurd rfl hne
  | cons n names ih =>
    rcases r with ⟨f, b⟩
    have hps : plotCorrelated a.names R (some n) N = none := by
      by_contra hcon
      have := (plotCorrelated_isSome a.names R (some n) N).1 (Option.isSome_iff_ne_none.2 hcon)
      omega
    rw [namesLoop, hps]
    dsimp only
    cases names with
    | nil => rfl
    | cons m ms => exact ih (f, false) (by simp)

/-- C102 fails: with a single parameter and both options, the figure that was made is not shown, and the program says that
nothing was done. -/
theorem C102_one_parameter (file : String) (names : List String) (o : Opts) (a : An) (R : ℕ → ℕ → ℚ)
    (h1 : a.names.length < 2) (hN : o.N ≠ 0) (figs : List (ℕ × List Subplot))
    (hf : plot a (names.map NameArg.name) o.inPop o.maxRatio = some figs) : main (file :: names) o a R = .noAnalysis := by
  have hc : ∀ r : List Fig × Bool, correlations a R o.N names r = (r.1, false) := by
    intro r
    unfold correlations
    rw [if_neg hN]
    cases names with
    | nil =>
      have hps : plotCorrelated a.names R none o.N = none := by
        by_contra hcon
        have := (plotCorrelated_isSome a.names R none o.N).1 (Option.isSome_iff_ne_none.2 hcon)
        omega
      simp [hps]
    | cons n ns => exact namesLoop_one a R o.N h1 (n :: ns) r (by simp)
  unfold main
  dsimp only
  by_cases hr : o.maxRatio = 0
  · rw [if_pos hr, hc]; rfl
  · rw [if_neg hr, hf]
    dsimp only
    rw [hc]; rfl

/-- Non-vacuity of C102_shown_partial: the sample population with one name and both options gives two figures. -/
example : 2 ≤ sample.names.length ∧ ∃ fs, main ["f", "b"] ⟨2, false, 3⟩ sample sampleR = .shown fs ∧ fs.length = 2 := by
  refine ⟨by decide, ?_⟩
  obtain ⟨figs, hf⟩ : ∃ figs, plot sample (["b"].map NameArg.name) false 2 = some figs := ⟨_, rfl⟩
  refine ⟨_, (C102_shown_partial "f" ["b"] ⟨2, false, 3⟩ sample sampleR (by decide)).2.2 figs (by norm_num) hf, ?_⟩
  have : figs.length = 1 := by
    have := Option.some.inj hf
    rw [← this]; rfl
  rw [List.length_append, List.length_map, this]
  obtain ⟨ps, hps⟩ := Option.isSome_iff_exists.1 ((plotCorrelated_isSome sample.names sampleR (some "b") 3).2 (by decide))
  simp [pairFigs, hps]

/-- Non-vacuity of C102_one_parameter. -/
example : ∃ a : An, a.names.length < 2 ∧ ∃ figs, plot a ([].map NameArg.name) true 2 = some figs ∧ figs.length = 1 :=
  ⟨{ sample with names := ["a"] }, by decide, _, rfl, rfl⟩

end Pv

/-! ## C103: extraction of the examples -/

namespace Extract

/-- A name to be extracted: a lower-case letter, something, a dot and one of the extensions. -/
def Wanted (exts : List (List Char)) (name : List Char) : Prop :=
  ∃ c mid ext, name = c :: (mid ++ '.' :: ext) ∧ 'a' ≤ c ∧ c ≤ 'z' ∧ mid ≠ [] ∧ ext ∈ exts

theorem wanted_iff (exts : List (List Char)) (name : List Char) : wanted exts name = true ↔ Wanted exts name := by
  cases name with
  | nil => simp [wanted, Wanted]
  | cons c rest =>
    simp only [wanted, Bool.and_eq_true, decide_eq_true_eq, List.any_eq_true, List.isSuffixOf_iff_suffix]
    constructor
    · rintro ⟨⟨h1, h2⟩, e, he, ⟨mid, hm⟩, hl⟩
      refine ⟨c, mid, e, by rw [hm], h1, h2, ?_, he⟩
      rintro rfl
      rw [← hm] at hl
      simp at hl
    · rintro ⟨c', mid, e, h, h1, h2, hne, he⟩
      obtain ⟨rfl, rfl⟩ := List.cons.inj h
      refine ⟨⟨h1, h2⟩, e, he, ⟨mid, rfl⟩, ?_⟩
      have := List.length_pos_iff.2 hne
      simp only [List.length_append, List.length_cons]
      omega

theorem loop_spec (exts : List (List Char)) (src : List Char → Option Node) (listing : List (List Char))
    (dest : List Char → Option Node) (name : List Char) :
    extractLoop exts src listing dest name =
      match dest name with
      | some x => some x
      | none => if name ∈ listing ∧ wanted exts name = true then
          match src name with
          | some (.file c) => some (.file c)
          | _ => none
        else none := by
  induction listing generalizing dest with
  | nil =>
    rw [extractLoop]
    cases dest name <;> simp
  | cons x xs ih =>
    rw [extractLoop]
    by_cases hw : wanted exts x = true
    · rw [if_pos hw]
      cases hd : dest x with
      | some y =>
        dsimp only
        rw [ih]
        cases hn : dest name with
        | some z => rfl
        | none =>
          dsimp only
          have : name ≠ x := by rintro rfl; rw [hd] at hn; cases hn
          simp [this]
      | none =>
        dsimp only
        cases hs : src x with
        | none =>
          dsimp only
          rw [ih]
          cases hn : dest name with
          | some z => rfl
          | none =>
            dsimp only
            by_cases he : name = x
            · subst he; simp [hs]
            · simp [he]
        | some nd =>
          cases nd with
          | dir =>
            dsimp only
            rw [ih]
            cases hn : dest name with
            | some z => rfl
            | none =>
              dsimp only
              by_cases he : name = x
              · subst he; simp [hs]
              · simp [he]
          | file c =>
            dsimp only
            rw [ih]
            by_cases he : name = x
            · subst he
              simp [hd, hs, hw]
            · rw [Function.update_of_ne he]
              cases hn : dest name with
              | some z => rfl
              | none => simp [he]
    · rw [if_neg hw, ih]
      cases hn : dest name with
      | some z => rfl
      | none =>
        dsimp only
        by_cases he : name = x
        · subst he; simp [hw]
        · simp [he]

/-- C103: what is in the subdirectory already stays as it is. -/
theorem C103_not_overwritten (exts listing : List (List Char)) (src : List Char → Option Node)
    (dest : List Char → Option Node) (name : List Char) (x : Node) (h : dest name = some x) :
    extract exts listing src (some dest) name = some x := by
  rw [extract, Option.getD_some, loop_spec, h]

/-- C103: each example file, by its name, that is missing there is created with the content of the packaged file; nothing
else is created. -/
theorem C103_created (exts listing : List (List Char)) (src : List Char → Option Node)
    (dest : Option (List Char → Option Node)) (name : List Char) (c : String) (h : ∀ d, dest = some d → d name = none) :
    extract exts listing src dest name = some (.file c) ↔ name ∈ listing ∧ Wanted exts name ∧ src name = some (.file c) := by
  rw [extract, loop_spec, ← wanted_iff]
  have hd : (dest.getD fun _ => none) name = none := by
    cases dest with
    | none => rfl
    | some d => exact h d rfl
  rw [hd]
  dsimp only
  split
  · rename_i hw
    simp only [hw, true_and]
    cases hs : src name with
    | none => simp
    | some nd => cases nd <;> simp
  · rename_i hw
    simp only [reduceCtorEq, false_iff]
    intro hcon
    exact hw ⟨hcon.1, hcon.2.1⟩

/-- C103: with the extensions of the script, these are sources in Python and C, texts and specs files whose name begins
with a lower-case letter and has another character before the extension. -/
theorem C103_kinds (listing : List (List Char)) (src : List Char → Option Node) (name : List Char) (c : String) :
    extract extensions listing src none name = some (.file c) ↔
      name ∈ listing ∧ src name = some (.file c) ∧
      ∃ (a : Char) (mid : List Char), 'a' ≤ a ∧ a ≤ 'z' ∧ mid ≠ [] ∧
        (name = a :: mid ++ ".py".toList ∨ name = a :: mid ++ ".c".toList ∨ name = a :: mid ++ ".txt".toList ∨
          name = a :: mid ++ ".specs".toList) := by
  rw [C103_created extensions listing src none name c (by simp)]
  have : Wanted extensions name ↔ ∃ (a : Char) (mid : List Char), 'a' ≤ a ∧ a ≤ 'z' ∧ mid ≠ [] ∧
        (name = a :: mid ++ ".py".toList ∨ name = a :: mid ++ ".c".toList ∨ name = a :: mid ++ ".txt".toList ∨
          name = a :: mid ++ ".specs".toList) := by
    constructor
    · rintro ⟨a, mid, ext, h1, h2, h3, h4, h5⟩
      refine ⟨a, mid, h2, h3, h4, ?_⟩
      simp only [extensions, List.mem_cons, List.not_mem_nil, or_false] at h5
      rcases h5 with rfl | rfl | rfl | rfl
      · exact .inl h1
      · exact .inr (.inl h1)
      · exact .inr (.inr (.inl h1))
      · exact .inr (.inr (.inr h1))
    · rintro ⟨a, mid, h2, h3, h4, h1 | h1 | h1 | h1⟩
      · exact ⟨a, mid, "py".toList, h1, h2, h3, h4, by simp [extensions]⟩
      · exact ⟨a, mid, "c".toList, h1, h2, h3, h4, by simp [extensions]⟩
      · exact ⟨a, mid, "txt".toList, h1, h2, h3, h4, by simp [extensions]⟩
      · exact ⟨a, mid, "specs".toList, h1, h2, h3, h4, by simp [extensions]⟩
  rw [this]
  exact ⟨fun h => ⟨h.1, h.2.2, h.2.1⟩, fun h => ⟨h.1, h.2.2, h.2.1⟩⟩

/-- C103: running it again changes nothing. -/
theorem C103_idempotent (exts listing : List (List Char)) (src : List Char → Option Node)
    (dest : Option (List Char → Option Node)) :
    extract exts listing src (some (extract exts listing src dest)) = extract exts listing src dest := by
  funext name
  cases h : extract exts listing src dest name with
  | some x => exact C103_not_overwritten exts listing src _ name x h
  | none =>
    rw [extract, Option.getD_some, loop_spec, h]
    rw [extract, loop_spec] at h
    dsimp only
    split at h
    · cases h
    · exact h

/-- C103: after deleting a changed example (or any file) and running it again, the default file is back and all other files
are as before. -/
theorem C103_restored (exts listing : List (List Char)) (src : List Char → Option Node)
    (dest : List Char → Option Node) (name : List Char) (c : String) (hl : name ∈ listing) (hw : Wanted exts name)
    (hs : src name = some (.file c)) :
    extract exts listing src (some (Function.update (extract exts listing src (some dest)) name none)) =
      Function.update (extract exts listing src (some dest)) name (some (.file c)) := by
  funext n
  by_cases hn : n = name
  · subst hn
    rw [Function.update_self]
    exact (C103_created exts listing src (some (Function.update (extract exts listing src (some dest)) n none)) n c
      (by intro d hd; injection hd with hd; rw [← hd, Function.update_self])).2
      ⟨hl, hw, hs⟩
  · rw [Function.update_of_ne hn]
    have e := congrFun (C103_idempotent exts listing src (some dest)) n
    rw [extract, Option.getD_some, loop_spec] at e ⊢
    rw [Function.update_of_ne hn]
    exact e

example := C103_not_overwritten extensions ["voc.py".toList] (fun _ => some (.file "new")) (fun _ => some (.file "mine"))
  "voc.py".toList (.file "mine") rfl

example := C103_kinds ["voc.py".toList] (fun _ => some (.file "new")) "voc.py".toList "new"

example := C103_created extensions ["voc.py".toList] (fun _ => some (.file "new")) (some fun _ => none) "voc.py".toList "new"
  (fun d hd => by cases hd; rfl)

/-- The files of the package (without logs and images) and their extraction. -/
example : (["README.txt", "__init__.py", "goldstein-price.c", "thermistor.py", "tempdump.csv", "voc.pyc", ".gitignore"].map
      fun s => wanted extensions s.toList) = [false, false, true, true, false, false, false] ∧
    Wanted extensions "voc.py".toList := by
  refine ⟨by decide +kernel, ?_⟩
  rw [← wanted_iff]
  decide +kernel

end Extract

/-! ## C104: command lines -/

namespace Args

/-- What follows the hyphen of a short option. -/
def letterOf (short : String) : Option String :=
  match short.toList with
  | '-' :: l => some (String.ofList l)
  | _ => none

/-- The declaration that four or three arguments amount to: the option is named by what follows the hyphen. -/
def declOf : List CallArg → Option Decl
  | [.text short, .text _, .value default, .text _] => (letterOf short).map (.store · default)
  | [.text short, .text _, .text _] => (letterOf short).map .flag
  | [.text _] => some .positional
  | _ => none

/-- Declaring options one after the other. -/
def declare (cl : CommandLine) (calls : List (List CallArg)) (o : Obj) : Obj := calls.foldl (fun o c => (call cl o c).1) o

/-- An object as constructed. -/
def fresh : Obj := { decls := [], parsed := none }

theorem call_decl (cl : CommandLine) (o : Obj) (c : List CallArg) (d : Decl) (h : declOf c = some d) :
    (call cl o c).1 = { o with decls := o.decls ++ [d] } := by
  have letter : ∀ short l, letterOf short = some l → l = dropFirst short := by
    intro short l hl
    unfold letterOf at hl
    unfold dropFirst
    split at hl
    · rename_i e
      injection hl with hl
      rw [← hl, e, List.tail_cons]
    · cases hl
  unfold declOf at h
  split at h
  · obtain ⟨l, hl, rfl⟩ := Option.map_eq_some_iff.1 h
    rw [letter _ _ hl]; rfl
  · obtain ⟨l, hl, rfl⟩ := Option.map_eq_some_iff.1 h
    rw [letter _ _ hl]; rfl
  · injection h with h; subst h; rfl
  · cases h

theorem declare_decls (cl : CommandLine) (calls : List (List CallArg)) (ds : List Decl) (o : Obj)
    (h : calls.map declOf = ds.map some) : declare cl calls o = { o with decls := o.decls ++ ds } := by
  induction calls generalizing ds o with
  | nil =>
    cases ds with
    | nil => simp [declare]
    | cons d ds => simp at h
  | cons c calls ih =>
    cases ds with
    | nil => simp at h
    | cons d ds =>
      simp only [List.map_cons, List.cons.injEq] at h
      have := ih ds (call cl o c).1 h.2
      rw [declare, List.foldl_cons]
      refine Eq.trans this ?_
      rw [call_decl cl o c d h.1]
      simp

theorem getattr_twice (cl : CommandLine) (o : Obj) (n m : String) :
    (getattr cl (getattr cl o n).1 m).2 = (getattr cl o m).2 := by
  simp [getattr]

/-- The name that a declaration makes a value available under. -/
def destOf : Decl → String
  | .store d _ => d
  | .flag d => d
  | .positional => "_args_"

/-- The value it gives to it. -/
def valueOf (cl : CommandLine) : Decl → Val
  | .store d v => (cl.given d).getD v
  | .flag d => (cl.given d).getD (.bool false)
  | .positional => .list cl.rest

theorem lookup_eq (cl : CommandLine) (decls : List Decl) (hnd : (decls.map destOf).Nodup) (d : Decl) (hd : d ∈ decls) :
    lookup cl decls (destOf d) = valueOf cl d := by
  induction decls with
  | nil => simp at hd
  | cons x xs ih =>
    rw [List.map_cons, List.nodup_cons] at hnd
    rcases List.mem_cons.1 hd with rfl | hm
    · cases d <;> simp [lookup, destOf, valueOf]
    · have hne : destOf d ≠ destOf x := by
        intro e
        exact hnd.1 (e ▸ List.mem_map_of_mem hm)
      have := ih hnd.2 hm
      cases x with
      | store a v =>
        rw [lookup, if_neg (fun e => hne e.symm)]; exact this
      | flag a =>
        rw [lookup, if_neg (fun e => hne e.symm)]; exact this
      | positional =>
        rw [lookup, if_neg (show ¬ destOf d = "_args_" from hne)]; exact this

theorem lookup_none (cl : CommandLine) (decls : List Decl) (name : String) (h : name ∉ decls.map destOf) :
    lookup cl decls name = .none := by
  induction decls with
  | nil => rfl
  | cons x xs ih =>
    simp only [List.map_cons, List.mem_cons, not_or] at h
    cases x with
    | store a v => rw [lookup, if_neg (fun e => h.1 e.symm)]; exact ih h.2
    | flag a => rw [lookup, if_neg (fun e => h.1 e.symm)]; exact ih h.2
    | positional => rw [lookup, if_neg (show ¬ name = "_args_" from h.1)]; exact ih h.2

/-- C104 (what holds): each option declared, with different letters, is available by its letter: as given on the command
line, else its default, `False` for a flag; other names are `None`. -/
theorem C104_values_partial (cl : CommandLine) (calls : List (List CallArg)) (ds : List Decl)
    (h : calls.map declOf = ds.map some) (hnd : (ds.map destOf).Nodup) :
    (∀ d ∈ ds, (getattr cl (declare cl calls fresh) (destOf d)).2 = valueOf cl d) ∧
    (∀ name, name ∉ ds.map destOf → (getattr cl (declare cl calls fresh) name).2 = .none) := by
  rw [declare_decls cl calls ds fresh h]
  exact ⟨fun d hd => lookup_eq cl ds hnd d hd, fun name hn => lookup_none cl ds name hn⟩

/-- C104 (what holds): if positional arguments were declared, the object is the sequence of those given. -/
theorem C104_positional_partial (cl : CommandLine) (calls : List (List CallArg)) (ds : List Decl)
    (h : calls.map declOf = ds.map some) (hnd : (ds.map destOf).Nodup) (hp : Decl.positional ∈ ds) :
    (len cl (declare cl calls fresh)).2 = some cl.rest.length ∧ (iter cl (declare cl calls fresh)).2 = some cl.rest ∧
      ∀ k, (getitem cl (declare cl calls fresh) k).2 = cl.rest[k]? := by
  have e : (getattr cl (declare cl calls fresh) "_args_").2 = .list cl.rest :=
    (C104_values_partial cl calls ds h hnd).1 _ hp
  simp only [len, iter, getitem, e]
  exact ⟨trivial, trivial, fun _ => trivial⟩

/-- C104 fails: without such a declaration it is no empty sequence: taking its length or iterating over it is an error. -/
theorem C104_no_positional (cl : CommandLine) (calls : List (List CallArg)) (ds : List Decl)
    (h : calls.map declOf = ds.map some) (hp : "_args_" ∉ ds.map destOf) :
    (len cl (declare cl calls fresh)).2 = none ∧ (iter cl (declare cl calls fresh)).2 = none := by
  have e : (getattr cl (declare cl calls fresh) "_args_").2 = .none := by
    rw [declare_decls cl calls ds fresh h]
    exact lookup_none cl ds _ hp
  simp only [len, iter, e]
  exact ⟨trivial, trivial⟩

/-- C104 fails: an option declared after the first access is not seen, not even its default. -/
theorem C104_declared_late (cl : CommandLine) (calls : List (List CallArg)) (ds : List Decl)
    (h : calls.map declOf = ds.map some) (name : String) (c : List CallArg) (d : Decl) (hd : declOf c = some d)
    (hn : destOf d ∉ ds.map destOf) :
    (getattr cl (call cl (getattr cl (declare cl calls fresh) name).1 c).1 (destOf d)).2 = .none := by
  rw [call_decl cl _ c d hd, declare_decls cl calls ds fresh h]
  exact lookup_none cl ds _ hn

/-- C104 fails: calls with two arguments (a forgotten description, say) or with more than four declare nothing. -/
theorem C104_ignored (cl : CommandLine) (o : Obj) (c : List CallArg) (h : c.length = 2 ∨ 4 < c.length) :
    call cl o c = (o, .nothing) := by
  unfold call
  split <;> first | rfl | (simp at h)

/-- C104: a callable is run if it belongs to the script that was started, and only then. -/
theorem C104_callable (cl : CommandLine) (calls : List (List CallArg)) (ds : List Decl)
    (h : calls.map declOf = ds.map some) (hh : "h" ∉ ds.map destOf) (isMain : Bool) :
    (call cl (declare cl calls fresh) [.callable isMain]).2 = .ran ↔ isMain = true := by
  have e : (getattr cl (declare cl calls fresh) "h").2 = .none := by
    rw [declare_decls cl calls ds fresh h]
    exact lookup_none cl ds _ hh
  cases isMain <;> simp [call, e]

theorem paraLoop_spec (lines acc : List (List Char)) (hacc : ∀ l ∈ acc, l ≠ []) (hne : lines ≠ [])
    (hlast : ∀ l, lines.getLast? = some l → l ≠ []) :
    [([] : List Char)].intercalate (paraLoop lines acc) = acc ++ lines ∧ (∀ g ∈ paraLoop lines acc, ∀ l ∈ g, l ≠ []) ∧
      paraLoop lines acc ≠ [] := by
  induction lines generalizing acc with
  | nil => exact absurd rfl hne
  | cons line rest ih =>
    rw [paraLoop]
    by_cases hl : line = []
    · have hr : rest ≠ [] := by
        rintro rfl
        exact hlast line rfl hl
      subst hl
      simp only [true_or, if_true]
      obtain ⟨h1, h2, h3⟩ := ih [] (by simp) hr (by
        intro l hl'
        refine hlast l ?_
        rw [List.getLast?_cons_of_ne_nil hr]; exact hl')
      refine ⟨?_, ?_, by simp⟩
      · obtain ⟨g, gs, hg⟩ := List.exists_cons_of_ne_nil h3
        rw [hg] at h1 ⊢
        rw [List.intercalate_cons_cons, h1]
        simp
      · intro g hg
        rcases List.mem_cons.1 hg with rfl | hg
        · exact hacc
        · exact h2 g hg
    · have hacc' : ∀ l ∈ acc ++ [line], l ≠ [] := by
        intro l hm
        rcases List.mem_append.1 hm with h | h
        · exact hacc l h
        · rw [List.mem_singleton.1 h]; exact hl
      by_cases hr : rest = []
      · subst hr
        simp only [hl, or_true, if_true, if_false, paraLoop]
        refine ⟨by simp [List.intercalate], ?_, by simp⟩
        intro g hg
        rw [List.mem_singleton.1 hg]; exact hacc'
      · simp only [hl, hr, or_self, if_false]
        obtain ⟨h1, h2, h3⟩ := ih (acc ++ [line]) hacc' hr (by
          intro l hl'
          refine hlast l ?_
          rw [List.getLast?_cons_of_ne_nil hr]; exact hl')
        exact ⟨by rw [h1]; simp, h2, h3⟩

/-- C104: the help text: the paragraphs are the runs of lines between blank lines, in order, no line lost; the first is the
description, the others, separated by blank lines, the epilog. -/
theorem C104_paragraphs (fill : List (List Char) → List Char) (lines : List (List Char)) (hne : lines ≠ [])
    (hlast : ∀ l, lines.getLast? = some l → l ≠ []) :
    ∃ g gs, [([] : List Char)].intercalate (g :: gs) = lines ∧ (∀ p ∈ g :: gs, ∀ l ∈ p, l ≠ []) ∧
      (describe fill lines).1 = some (fill g) ∧
      (describe fill lines).2 = if gs = [] then none else some (['\n', '\n'].intercalate (gs.map fill)) := by
  obtain ⟨h1, h2, h3⟩ := paraLoop_spec lines [] (by simp) hne hlast
  obtain ⟨g, gs, hg⟩ := List.exists_cons_of_ne_nil h3
  rw [hg] at h1 h2
  refine ⟨g, gs, by simpa using h1, h2, ?_, ?_⟩ <;> rw [describe, hg]
  · cases gs <;> rfl
  · cases gs <;> rfl

/-- Options of the parameter viewer, in part. -/
def pvCalls : List (List CallArg) :=
  [[.text "-r", .text "--max-ratio", .value (.int 0), .text "Show parameter vs SSE plots"],
   [.text "-i", .text "--in-pop", .text "Only individuals currently in the population"],
   [.text "<pickle file> [param1 param2 ...]"]]

/-- Non-vacuity of C104_values_partial, C104_positional_partial. -/
example : pvCalls.map declOf = [Decl.store "r" (.int 0), .flag "i", .positional].map some ∧
    ([Decl.store "r" (.int 0), .flag "i", .positional].map destOf).Nodup := by
  decide +kernel

/-- Non-vacuity of C104_no_positional, C104_declared_late, C104_callable. -/
example : (pvCalls.take 2).map declOf = [Decl.store "r" (.int 0), .flag "i"].map some ∧
    "_args_" ∉ [Decl.store "r" (.int 0), .flag "i"].map destOf ∧ "h" ∉ [Decl.store "r" (.int 0), .flag "i"].map destOf := by
  decide +kernel

/-- Non-vacuity of C104_paragraphs: two blank lines make an empty paragraph. -/
example : paraLoop [['a'], ['b'], [], [], ['c']] [] = [[['a'], ['b']], [], [['c']]] := by decide +kernel

/-- The arguments of a call of the viewer. -/
def pvLine : CommandLine := ⟨fun n => if n = "r" then some (.int 5) else none, ["f.dat", "x"]⟩

/-- What the calls declare. -/
def pvDecls : List Decl := [.store "r" (.int 0), .flag "i", .positional]

example := C104_values_partial pvLine pvCalls pvDecls (by decide +kernel) (by decide +kernel)

example := C104_positional_partial pvLine pvCalls pvDecls (by decide +kernel) (by decide +kernel) (by decide +kernel)

example := C104_no_positional pvLine (pvCalls.take 2) (pvDecls.take 2) (by decide +kernel) (by decide +kernel)

example := C104_declared_late pvLine (pvCalls.take 1) (pvDecls.take 1) (by decide +kernel) "r"
  [.text "-i", .text "--in-pop", .text "Only individuals currently in the population"] (.flag "i") (by decide +kernel)
  (by decide +kernel)

example := C104_ignored pvLine fresh [.text "-i", .text "--in-pop"] (.inl rfl)

example := C104_callable pvLine (pvCalls.take 2) (pvDecls.take 2) (by decide +kernel) (by decide +kernel) true

end Args
end Ade
