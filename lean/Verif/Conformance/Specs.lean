import Verif.Model.Specs

/-!
# The tests of `ade/test/test_specs.py`, on the model

These are tests of the model, not proofs: every example repeats one test of the repository with the same
inputs and the results expected there. They count for no property.
-/

set_option autoImplicit false

namespace Ade
namespace Specs
namespace Conformance

/-- A name as key. -/
def nm (s : String) : Key := .name s.toList

/-- The single values in a single value or list; `none` for other trees. -/
def flat : Tree → Option (List Scalar)
  | .leaf v => some [v]
  | .seq xs => xs.mapM fun t => match t with | .leaf v => some v | _ => none
  | .dict _ => none

/-- The entries of a dict of single values or lists. -/
def entries : Tree → Option (List (Key × List Scalar))
  | .dict es => es.mapM fun e => (flat e.2).map fun v => (e.1, v)
  | _ => none

/-- The entries of a dict of dicts. -/
def entries2 : Tree → Option (List (Key × List (Key × List Scalar)))
  | .dict es => es.mapM fun e => (entries e.2).map fun v => (e.1, v)
  | _ => none

/-- A number. -/
def num (q : ℚ) : Tree := .leaf (.num q)

/-- Several calls of `DictStacker.add`. -/
def addAll (calls : List (ℚ × Key × List Key)) : Except Err (List (Key × Tree)) :=
  calls.foldlM (fun es c => stack es c.2.1 c.2.2 (num c.1)) []

/-- test_specs.py:48-52, `test_add_one`. -/
example : (addAll [(1, nm "first", [])]).toOption.bind (fun es => entries (.dict es)) =
    some [(nm "first", [.num 1])] := by decide +kernel

/-- test_specs.py:54-59, `test_add_multiple`. -/
example : (addAll [(1, nm "first", []), (2, nm "second", [])]).toOption.bind (fun es => entries (.dict es)) =
    some [(nm "first", [.num 1]), (nm "second", [.num 2])] := by decide +kernel

/-- The dict of `test_add_nested`. -/
def nestedDict : Except Err (List (Key × Tree)) :=
  addAll [(0, nm "zero", []), (1, nm "x1", [.int 1]), (2, nm "x1", [.int 2]), (10, nm "x10", [.int 1]),
    (20, nm "x10", [.int 2]), (4, nm "x2", [.int 2])]

/-- test_specs.py:61-76, `test_add_nested`: the keys, the value under `zero`, and the three dicts. -/
example : nestedDict.toOption.map (fun es => es.map Prod.fst) =
      some [nm "zero", nm "x1", nm "x10", nm "x2"] ∧
    nestedDict.toOption.bind (fun es => flat (getIn es (nm "zero") [])) = some [.num 0] ∧
    nestedDict.toOption.bind (fun es => entries (getIn es (nm "x1") [])) =
      some [(.int 1, [.num 1]), (.int 2, [.num 2])] ∧
    nestedDict.toOption.bind (fun es => entries (getIn es (nm "x2") [])) = some [(.int 2, [.num 4])] ∧
    nestedDict.toOption.bind (fun es => entries (getIn es (nm "x10") [])) =
      some [(.int 1, [.num 10]), (.int 2, [.num 20])] := by decide +kernel

/-- test_specs.py:83-85, `test_add`. -/
example : (addAttr ⟨[], none, none⟩ (nm "foo") (num 1)).toOption.bind
    (fun st => (lookup st.attrs (nm "foo")).bind flat) = some [.num 1] := by decide +kernel

/-- test_specs.py:87-103, `test_add_dict_basic` and `test_add_dict_nested`: a dict is started, filled and done. -/
example :
    (addAll [(1, nm "alpha", []), (2, nm "bravo", [])]).toOption.bind (fun es =>
      (hyphens ⟨[], some (nm "foo", es), none⟩).toOption.bind fun st =>
        (lookup st.attrs (nm "foo")).bind entries) =
      some [(nm "alpha", [.num 1]), (nm "bravo", [.num 2])] ∧
    (addAll [(11 / 10, nm "alpha", [nm "first"]), (12 / 10, nm "alpha", [nm "second"]),
        (21 / 10, nm "bravo", [nm "first"]), (22 / 10, nm "bravo", [nm "second"])]).toOption.bind (fun es =>
      (hyphens ⟨[], some (nm "foo", es), none⟩).toOption.bind fun st =>
        (lookup st.attrs (nm "foo")).bind entries2) =
      some [(nm "alpha", [(nm "first", [.num (11 / 10)]), (nm "second", [.num (12 / 10)])]),
        (nm "bravo", [(nm "first", [.num (21 / 10)]), (nm "second", [.num (22 / 10)])])] := by decide +kernel

/-- test_specs.py:105-108, `test_get_attr`. -/
example : (get [(nm "foo", num 1)] (nm "foo") []).toOption.bind flat = some [.num 1] ∧
    (get [(nm "foo", num 1)] (nm "bar") []).toOption.bind entries = some [] := by decide +kernel

/-- The attribute of `test_get_dict`. -/
def stuff : List (Key × Tree) := [(nm "stuff", .dict [(nm "alpha", num 1), (nm "bravo", num 2)])]

/-- test_specs.py:110-116, `test_get_dict`. -/
example :
    (get stuff (nm "stuff") []).toOption.bind entries =
      some [(nm "alpha", [.num 1]), (nm "bravo", [.num 2])] ∧
    (get stuff (nm "stuff") [nm "alpha"]).toOption.bind flat = some [.num 1] ∧
    (get stuff (nm "stuff") [nm "bravo"]).toOption.bind flat = some [.num 2] ∧
    (get stuff (nm "stuff") [nm "charlie"]).toOption.bind entries = some [] := by decide +kernel

/-- The attribute of `test_get_subdict`. -/
def stuff2 : List (Key × Tree) :=
  [(nm "stuff", .dict [(nm "alpha", num 1), (nm "bravo", .dict [(nm "second", num 2), (nm "third", num 3)])])]

/-- test_specs.py:118-124, `test_get_subdict`. -/
example :
    (get stuff2 (nm "stuff") [nm "alpha"]).toOption.bind flat = some [.num 1] ∧
    (get stuff2 (nm "stuff") [nm "bravo", nm "second"]).toOption.bind flat = some [.num 2] ∧
    (get stuff2 (nm "stuff") [nm "bravo", nm "third"]).toOption.bind flat = some [.num 3] := by decide +kernel

/-- test_specs.py:136-141, `test_parseName_dictName` and `test_parseName_dictKey`. -/
example : parseName "foo".toList = [nm "foo"] ∧ parseName "foo:bar".toList = [nm "foo", nm "bar"] := by
  decide +kernel

/-- test_specs.py:143-147, `test_parseValue`. -/
example : parseValue "None".toList = .none ∧ parseValue "True".toList = .bool true ∧
    parseValue "False".toList = .bool false ∧ parseValue "3.14159".toList = .num (314159 / 100000) := by
  decide +kernel

/-- The file `ade/test/test.specs`, line by line. -/
def testSpecs : List Str := [
  "#; -*- mode: conf;-*-\n".toList,
  "# Comments are ignored\n".toList,
  "\n".toList,
  "\n".toList,
  "first\n".toList,
  "------------------------------------------------------------\n".toList,
  "alpha           0               1\n".toList,
  "bravo          -1.5            +1.5\n".toList,
  "charlie         3.14159\n".toList,
  "------------------------------------------------------------\n".toList,
  "\n".toList,
  "\n".toList,
  "second\n".toList,
  "------------------------------------------------------------\n".toList,
  "alpha           0               10\n".toList,
  "bravo          -15             +15      # Comment\n".toList,
  "------------------------------------------------------------\n".toList,
  "\n".toList,
  "\n".toList,
  "# Entire U.S. as a whole\n".toList,
  "C19_US\n".toList,
  "-------------------------------------------------------------------------------\n".toList,
  "# 6/27/20\n".toList,
  "N6:aicc            +10.5\n".toList,
  "N6:p                0.547\n".toList,
  "\n".toList,
  "# First relevant day after 1/22/20\n".toList,
  "k0                  42\n".toList,
  "\n".toList,
  "# Parameter bounds\n".toList,
  "pb:L                5e6         3.3e8\n".toList,
  "pb:r                0.38        0.54\n".toList,
  "pb:rf               0.93        0.97\n".toList,
  "pb:th               14          20\n".toList,
  "pb:t0               60          65\n".toList,
  "pb:b                0           250\n".toList,
  "\n".toList,
  "# Constraint: Linear relation between parameter 'r' and others\n".toList,
  "#  -----------------+-----------+-----------+-----------+---------------\n".toList,
  "#                   |           |           |           |\n".toList,
  "#                   other       m           b           limit +/-\n".toList,
  "relations:r         t0         -29.486     +75.451      3.0\n".toList,
  "-------------------------------------------------------------------------------\n".toList,
  "\n".toList]

/-- What `get` gives after loading the file. -/
def loaded (first : String) (names : List String) : Option (List Scalar) :=
  (read testSpecs).toOption.bind fun st => (get st.attrs (nm first) (names.map nm)).toOption.bind flat

/-- test_specs.py:132-134, `test_get_attribute`. -/
example : loaded "C19_US" ["k0"] = some [.num 42] := by decide +kernel

/-- test_specs.py:149-158, `test_call`. -/
example : loaded "first" ["alpha"] = some [.num 0, .num 1] ∧
    loaded "first" ["bravo"] = some [.num (-15 / 10), .num (15 / 10)] ∧
    loaded "first" ["charlie"] = some [.num (314159 / 100000)] ∧
    loaded "second" ["alpha"] = some [.num 0, .num 10] ∧
    loaded "second" ["bravo"] = some [.num (-15), .num 15] := by decide +kernel

/-- test_specs.py:160-162, `test_call_complicated`. -/
example : loaded "C19_US" ["relations", "r"] =
    some [.str "t0".toList, .num (-29486 / 1000), .num (75451 / 1000), .num 3] := by decide +kernel

end Conformance
end Specs
end Ade
