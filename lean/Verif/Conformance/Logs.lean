import Verif.Model.RunLoop
import Verif.Model.LogText
import Verif.Model.TimeData
import Verif.Model.GpSingle
import Verif.Props.LogNumbers

/-!
# The recorded logs of the examples, on the model

`ade/examples/goldstein-price.log`, `thermistor.log` and `voc.log` were written by runs of the program, of an earlier version
of it. These are tests of the model, not proofs: what the model says is compared with what was written. They count for no
property.

* The mutation range of every generation is written. From generation to generation it changes as `up` or `down` of the model
  says, to the 12 decimals that are written (with Python 2). Which of the two it was is not written,
  but can be told from the range (the lists `...Kept`).
* The run of thermistor.log stopped by itself, after generation 854, as the model says for the setting `dwellByGrave=12` of
  that example (ade/examples/thermistor.py:362). (goldstein-price.log ended by the default setting of its time, which was
  7.)
* Tables of the population and individuals are written as the model says, but the lines were shorter then, and there was no
  room for stars in the table; and they are read by the log grepper of the model.
-/

set_option autoImplicit false

namespace Ade
namespace FManager
namespace Logs



/-- The constants for a critical value, with 14 decimals where they are not rational. -/
def consts (crit : ℚ) : Consts ℚ :=
  ⟨89 / 100, 87 / 100, 89 / 100, 3, crit, 110799243236384 / 10 ^ 14, 113037633743221 / 10 ^ 14, 110799243236384 / 10 ^ 14⟩

/-- The critical values for `CR = 0.8` and 40, 280 and 200 members. -/
def gpConsts : Consts ℚ := consts (12247448713916 / 10 ^ 14)
def thermistorConsts : Consts ℚ := consts (4629100498863 / 10 ^ 14)
def vocConsts : Consts ℚ := consts (5477225575052 / 10 ^ 14)

example : |gpConsts.crit ^ 2 - 6 / 10 / 40| < 1 / 10 ^ 14 ∧ |thermistorConsts.crit ^ 2 - 6 / 10 / 280| < 1 / 10 ^ 14 ∧
    |vocConsts.crit ^ 2 - 6 / 10 / 200| < 1 / 10 ^ 14 := by decide +kernel

/-- The ranges, generation after generation. -/
def ranges (c : Consts ℚ) : FM ℚ → List Op → List (ℚ × ℚ)
  | m, [] => [(m.F.lowest, m.F.highest)]
  | m, op :: ops => (m.F.lowest, m.F.highest) :: ranges c (step c m op) ops

/-- A range agrees with a written one, given in units of the 13th decimal. -/
def agrees (r : ℚ × ℚ) (w : ℕ × ℕ) : Bool := |r.1 * 10 ^ 13 - w.1| ≤ 6 && |r.2 * 10 ^ 13 - w.2| ≤ 6

/-- All agree, generation after generation. -/
def agree : List (ℚ × ℚ) → List (ℕ × ℕ) → Bool
  | [], [] => true
  | r :: rs, w :: ws => agrees r w && agree rs ws
  | _, _ => false

/-- The requests told by groups. -/
def requests (kept : List (ℕ × ℕ)) : List Op :=
  kept.flatMap fun k => List.replicate k.1 .up ++ List.replicate k.2 .down

/-- All ranges told by groups. -/
def all (written : List (ℕ × ℕ × ℕ)) : List (ℕ × ℕ) := written.flatMap fun r => List.replicate r.1 r.2

/-- What `replacement` said after each generation of goldstein-price.log but the last, in groups: how often
yes, then how often no. -/
def gpKept : List (ℕ × ℕ) := [
  (21, 26)]

/-- The mutation ranges printed in goldstein-price.log, in units of the 13th decimal, with
the number of generations in a row that have them. -/
def gpRanges : List (ℕ × ℕ × ℕ) := [
  (22, 5000000000000, 10000000000000), (1, 4450000000000, 10000000000000), (1, 3960500000000, 10000000000000), (1, 3524845000000, 10000000000000), (1, 3137112050000, 10000000000000),
  (1, 2792029724500, 10000000000000), (1, 2484906454810, 10000000000000), (1, 2211566744780, 10000000000000), (1, 1968294402850, 10000000000000),
  (1, 1751782018540, 10000000000000), (1, 1559085996500, 10000000000000), (1, 1387586536880, 10000000000000), (1, 1234952017830, 10000000000000),
  (1, 1234952017830, 8700000000000), (1, 1234952017830, 7569000000000), (1, 1234952017830, 6585030000000),
  (1, 1234952017830, 5728976100000), (1, 1234952017830, 4984209207000), (1, 1234952017830, 4336262010090),
  (8, 1234952017830, 3772547948780)]

/-- What `replacement` said after each generation of thermistor.log but the last, in groups: how often
yes, then how often no. -/
def thermistorKept : List (ℕ × ℕ) := [
  (129, 1), (5, 1), (2, 1), (18, 1), (2, 1), (3, 1), (2, 1), (4, 1), (8, 1), (8, 1), (56, 1), (7, 2), (26, 1),
  (9, 1), (6, 1), (4, 1), (1, 1), (29, 1), (7, 1), (10, 1), (10, 1), (5, 1), (1, 1), (3, 1), (4, 1), (4, 1),
  (1, 1), (15, 1), (3, 1), (3, 1), (2, 1), (1, 1), (4, 1), (2, 1), (2, 1), (6, 2), (15, 1), (5, 1), (2, 2), (6, 2),
  (10, 1), (3, 1), (1, 1), (2, 1), (24, 1), (3, 1), (5, 2), (7, 1), (2, 1), (4, 2), (2, 1), (3, 1), (2, 3), (6, 1),
  (1, 1), (4, 1), (1, 1), (2, 1), (1, 2), (2, 1), (1, 1), (1, 1), (5, 1), (2, 1), (4, 1), (1, 1), (1, 1), (2, 3),
  (1, 1), (1, 1), (1, 2), (1, 2), (2, 2), (1, 3), (1, 1), (2, 1), (4, 1), (1, 1), (1, 1), (2, 2), (5, 4), (2, 1),
  (1, 1), (1, 2), (2, 1), (1, 1), (3, 2), (1, 1), (1, 1), (3, 1), (1, 2), (2, 2), (1, 1), (1, 1), (1, 3), (2, 1),
  (2, 2), (2, 2), (2, 2), (1, 2), (1, 1), (3, 1), (2, 3), (2, 1), (1, 3), (1, 1), (5, 1), (1, 1), (3, 1), (1, 2),
  (1, 2), (3, 1), (1, 3), (1, 2), (2, 3), (2, 3), (1, 1), (2, 1), (1, 1), (1, 1), (3, 7), (1, 1), (2, 6), (1, 3),
  (2, 1), (1, 1), (1, 1), (1, 2), (1, 1), (1, 3), (1, 4), (1, 10), (1, 13)]

/-- The mutation ranges printed in thermistor.log, in units of the 13th decimal, with
the number of generations in a row that have them. -/
def thermistorRanges : List (ℕ × ℕ × ℕ) := [
  (130, 5000000000000, 10000000000000), (1, 4450000000000, 10000000000000), (1, 4930566324020, 10000000000000), (4, 5000000000000, 10000000000000), (1, 4450000000000, 10000000000000),
  (1, 4930566324020, 10000000000000), (1, 5000000000000, 10000000000000), (1, 4450000000000, 10000000000000), (1, 4930566324020, 10000000000000), (17, 5000000000000, 10000000000000),
  (1, 4450000000000, 10000000000000), (1, 4930566324020, 10000000000000), (1, 5000000000000, 10000000000000), (1, 4450000000000, 10000000000000), (1, 4930566324020, 10000000000000),
  (2, 5000000000000, 10000000000000), (1, 4450000000000, 10000000000000), (1, 4930566324020, 10000000000000), (1, 5000000000000, 10000000000000), (1, 4450000000000, 10000000000000),
  (1, 4930566324020, 10000000000000), (3, 5000000000000, 10000000000000), (1, 4450000000000, 10000000000000), (1, 4930566324020, 10000000000000), (7, 5000000000000, 10000000000000),
  (1, 4450000000000, 10000000000000), (1, 4930566324020, 10000000000000), (7, 5000000000000, 10000000000000), (1, 4450000000000, 10000000000000), (1, 4930566324020, 10000000000000),
  (55, 5000000000000, 10000000000000), (1, 4450000000000, 10000000000000), (1, 4930566324020, 10000000000000), (6, 5000000000000, 10000000000000), (1, 4450000000000, 10000000000000),
  (1, 3960500000000, 10000000000000), (1, 4388204028380, 10000000000000), (1, 4862096855110, 10000000000000), (24, 5000000000000, 10000000000000), (1, 4450000000000, 10000000000000),
  (1, 4930566324020, 10000000000000), (8, 5000000000000, 10000000000000), (1, 4450000000000, 10000000000000), (1, 4930566324020, 10000000000000), (5, 5000000000000, 10000000000000),
  (1, 4450000000000, 10000000000000), (1, 4930566324020, 10000000000000), (3, 5000000000000, 10000000000000), (1, 4450000000000, 10000000000000), (1, 4930566324020, 10000000000000),
  (1, 4388204028380, 10000000000000), (1, 4862096855110, 10000000000000), (28, 5000000000000, 10000000000000), (1, 4450000000000, 10000000000000),
  (1, 4930566324020, 10000000000000), (6, 5000000000000, 10000000000000), (1, 4450000000000, 10000000000000), (1, 4930566324020, 10000000000000), (9, 5000000000000, 10000000000000),
  (1, 4450000000000, 10000000000000), (1, 4930566324020, 10000000000000), (9, 5000000000000, 10000000000000), (1, 4450000000000, 10000000000000), (1, 4930566324020, 10000000000000),
  (4, 5000000000000, 10000000000000), (1, 4450000000000, 10000000000000), (1, 4930566324020, 10000000000000), (1, 4388204028380, 10000000000000),
  (1, 4862096855110, 10000000000000), (2, 5000000000000, 10000000000000), (1, 4450000000000, 10000000000000), (1, 4930566324020, 10000000000000), (3, 5000000000000, 10000000000000),
  (1, 4450000000000, 10000000000000), (1, 4930566324020, 10000000000000), (3, 5000000000000, 10000000000000), (1, 4450000000000, 10000000000000), (1, 4930566324020, 10000000000000),
  (1, 4388204028380, 10000000000000), (1, 4862096855110, 10000000000000), (14, 5000000000000, 10000000000000), (1, 4450000000000, 10000000000000),
  (1, 4930566324020, 10000000000000), (2, 5000000000000, 10000000000000), (1, 4450000000000, 10000000000000), (1, 4930566324020, 10000000000000), (2, 5000000000000, 10000000000000),
  (1, 4450000000000, 10000000000000), (1, 4930566324020, 10000000000000), (1, 5000000000000, 10000000000000), (1, 4450000000000, 10000000000000), (1, 4930566324020, 10000000000000),
  (1, 4388204028380, 10000000000000), (1, 4862096855110, 10000000000000), (3, 5000000000000, 10000000000000), (1, 4450000000000, 10000000000000),
  (1, 4930566324020, 10000000000000), (1, 5000000000000, 10000000000000), (1, 4450000000000, 10000000000000), (1, 4930566324020, 10000000000000), (1, 5000000000000, 10000000000000),
  (1, 4450000000000, 10000000000000), (1, 4930566324020, 10000000000000), (5, 5000000000000, 10000000000000), (1, 4450000000000, 10000000000000), (1, 3960500000000, 10000000000000),
  (1, 4388204028380, 10000000000000), (1, 4862096855110, 10000000000000), (13, 5000000000000, 10000000000000), (1, 4450000000000, 10000000000000),
  (1, 4930566324020, 10000000000000), (4, 5000000000000, 10000000000000), (1, 4450000000000, 10000000000000), (1, 4930566324020, 10000000000000), (1, 5000000000000, 10000000000000),
  (1, 4450000000000, 10000000000000), (1, 3960500000000, 10000000000000), (1, 4388204028380, 10000000000000), (1, 4862096855110, 10000000000000), (4, 5000000000000, 10000000000000),
  (1, 4450000000000, 10000000000000), (1, 3960500000000, 10000000000000), (1, 4388204028380, 10000000000000), (1, 4862096855110, 10000000000000), (8, 5000000000000, 10000000000000),
  (1, 4450000000000, 10000000000000), (1, 4930566324020, 10000000000000), (2, 5000000000000, 10000000000000), (1, 4450000000000, 10000000000000), (1, 4930566324020, 10000000000000),
  (1, 4388204028380, 10000000000000), (1, 4862096855110, 10000000000000), (1, 5000000000000, 10000000000000), (1, 4450000000000, 10000000000000),
  (1, 4930566324020, 10000000000000), (23, 5000000000000, 10000000000000), (1, 4450000000000, 10000000000000), (1, 4930566324020, 10000000000000), (2, 5000000000000, 10000000000000),
  (1, 4450000000000, 10000000000000), (1, 4930566324020, 10000000000000), (4, 5000000000000, 10000000000000), (1, 4450000000000, 10000000000000), (1, 3960500000000, 10000000000000),
  (1, 4388204028380, 10000000000000), (1, 4862096855110, 10000000000000), (5, 5000000000000, 10000000000000), (1, 4450000000000, 10000000000000),
  (1, 4930566324020, 10000000000000), (1, 5000000000000, 10000000000000), (1, 4450000000000, 10000000000000), (1, 4930566324020, 10000000000000), (3, 5000000000000, 10000000000000),
  (1, 4450000000000, 10000000000000), (1, 3960500000000, 10000000000000), (1, 4388204028380, 10000000000000), (1, 4862096855110, 10000000000000),
  (1, 4327266201050, 10000000000000), (1, 4794578203590, 10000000000000), (2, 5000000000000, 10000000000000), (1, 4450000000000, 10000000000000),
  (1, 4930566324020, 10000000000000), (1, 5000000000000, 10000000000000), (1, 4450000000000, 10000000000000), (1, 3960500000000, 10000000000000), (1, 3524845000000, 10000000000000),
  (1, 3905501585260, 10000000000000), (1, 4327266201050, 10000000000000), (1, 4794578203590, 10000000000000), (3, 5000000000000, 10000000000000),
  (1, 4450000000000, 10000000000000), (1, 4930566324020, 10000000000000), (1, 4388204028380, 10000000000000), (1, 4862096855110, 10000000000000),
  (3, 5000000000000, 10000000000000), (1, 4450000000000, 10000000000000), (1, 4930566324020, 10000000000000), (1, 4388204028380, 10000000000000),
  (1, 4862096855110, 10000000000000), (1, 5000000000000, 10000000000000), (1, 4450000000000, 10000000000000), (1, 4930566324020, 10000000000000),
  (1, 4388204028380, 10000000000000), (1, 3905501585260, 10000000000000), (1, 4327266201050, 10000000000000), (1, 4794578203590, 10000000000000),
  (1, 4267174601190, 10000000000000), (1, 4727997165690, 10000000000000), (1, 4207917477470, 10000000000000), (1, 4662340721050, 10000000000000),
  (1, 4149483241730, 10000000000000), (1, 4597596030060, 10000000000000), (4, 5000000000000, 10000000000000), (1, 4450000000000, 10000000000000),
  (1, 4930566324020, 10000000000000), (1, 5000000000000, 10000000000000), (1, 4450000000000, 10000000000000), (1, 4930566324020, 10000000000000), (3, 5000000000000, 10000000000000),
  (1, 4450000000000, 10000000000000), (1, 4930566324020, 10000000000000), (1, 4388204028380, 10000000000000), (1, 4862096855110, 10000000000000),
  (1, 4327266201050, 10000000000000), (1, 4794578203590, 10000000000000), (1, 5000000000000, 10000000000000), (1, 4450000000000, 10000000000000), (1, 3960500000000, 10000000000000),
  (1, 3524845000000, 10000000000000), (1, 3905501585260, 10000000000000), (1, 3475896410880, 10000000000000), (1, 3851266918930, 10000000000000),
  (1, 3427627557850, 10000000000000), (1, 3797785395060, 10000000000000), (1, 3380029001600, 10000000000000), (1, 3008225811430, 10000000000000),
  (1, 3333091433900, 10000000000000), (1, 2966451376170, 10000000000000), (1, 2640141724790, 10000000000000), (1, 2925257051440, 10000000000000),
  (1, 3241162675710, 10000000000000), (1, 2884634781390, 10000000000000), (1, 2567324955430, 10000000000000), (1, 2844576622040, 10000000000000),
  (1, 2531673193610, 10000000000000), (1, 2253189142320, 10000000000000), (1, 2005338336660, 10000000000000), (1, 2221899701350, 10000000000000),
  (1, 1977490734200, 10000000000000), (1, 2191044768570, 10000000000000), (1, 2427661022540, 10000000000000), (1, 2160618310060, 10000000000000),
  (1, 2393948736780, 10000000000000), (1, 2652477083810, 10000000000000), (1, 2938924535880, 10000000000000), (1, 3256306145050, 10000000000000),
  (1, 2898112469090, 10000000000000), (1, 3211086683890, 10000000000000), (1, 2857867148670, 10000000000000), (1, 3166495173420, 10000000000000),
  (1, 2818180704350, 10000000000000), (1, 3122522893450, 10000000000000), (1, 3459731735830, 10000000000000), (1, 3079161244880, 10000000000000),
  (1, 2740453507950, 10000000000000), (1, 3036401748050, 10000000000000), (1, 3364310158460, 10000000000000), (1, 3727630195690, 10000000000000),
  (1, 4130186047480, 10000000000000), (1, 4576214884860, 10000000000000), (1, 4072831247530, 10000000000000), (1, 3624819810300, 10000000000000),
  (1, 3226089631170, 10000000000000), (1, 2871219771740, 10000000000000), (1, 3181289778740, 10000000000000), (1, 3524845000000, 10000000000000),
  (1, 3137112050000, 10000000000000), (1, 3475896410880, 10000000000000), (1, 3093547805680, 10000000000000), (1, 3427627557850, 10000000000000),
  (1, 3050588526490, 10000000000000), (1, 2715023788570, 10000000000000), (1, 3008225811430, 10000000000000), (1, 3333091433900, 10000000000000),
  (1, 2966451376170, 10000000000000), (1, 3286805675780, 10000000000000), (1, 2925257051440, 10000000000000), (1, 3241162675710, 10000000000000),
  (1, 3591183716750, 10000000000000), (1, 3979004381390, 10000000000000), (1, 3541313899440, 10000000000000), (1, 3151769370500, 10000000000000),
  (1, 3492136611070, 10000000000000), (1, 3108001583850, 10000000000000), (1, 3443642234680, 10000000000000), (1, 3064841588870, 10000000000000),
  (1, 3395821286860, 10000000000000), (1, 3762544287500, 10000000000000), (1, 4168870596980, 10000000000000), (1, 3710294831310, 10000000000000),
  (1, 4110978594940, 10000000000000), (1, 3658770949490, 10000000000000), (1, 3256306145050, 10000000000000), (1, 3607962566170, 10000000000000),
  (1, 3997595219570, 10000000000000), (1, 3557859745420, 10000000000000), (1, 3166495173420, 10000000000000), (1, 3508452689270, 10000000000000),
  (1, 3122522893450, 10000000000000), (1, 3459731735830, 10000000000000), (1, 3079161244880, 10000000000000), (1, 3411687357360, 10000000000000),
  (1, 3036401748050, 10000000000000), (1, 2702397555760, 10000000000000), (1, 2405133824630, 10000000000000), (1, 2664870076510, 10000000000000),
  (1, 2952655878010, 10000000000000), (1, 2627863731430, 10000000000000), (1, 2911653127710, 10000000000000), (1, 3226089631170, 10000000000000),
  (1, 2871219771740, 10000000000000), (1, 2555385596850, 10000000000000), (1, 2831347903080, 10000000000000), (1, 3137112050000, 10000000000000),
  (1, 2792029724500, 10000000000000), (1, 2484906454810, 10000000000000), (1, 2753257547060, 10000000000000), (1, 3050588526490, 10000000000000),
  (1, 2715023788570, 10000000000000), (1, 2416371171830, 10000000000000), (1, 2677320972170, 10000000000000), (1, 2382815665230, 10000000000000),
  (1, 2120705942060, 10000000000000), (1, 2349726135070, 10000000000000), (1, 2091256260210, 10000000000000), (1, 2317096110450, 10000000000000),
  (1, 2567324955430, 10000000000000), (1, 2844576622040, 10000000000000), (1, 2531673193610, 10000000000000), (1, 2805074739740, 10000000000000),
  (1, 3108001583850, 10000000000000), (1, 2766121409630, 10000000000000), (1, 2461848054570, 10000000000000), (1, 2191044768570, 10000000000000),
  (1, 2427661022540, 10000000000000), (1, 2689830041320, 10000000000000), (1, 2393948736780, 10000000000000), (1, 2652477083810, 10000000000000),
  (1, 2360704604590, 10000000000000), (1, 2101027098090, 10000000000000), (1, 1869914117300, 10000000000000), (1, 2071850691140, 10000000000000),
  (1, 1843947115110, 10000000000000), (1, 2043079449220, 10000000000000), (1, 2263716568460, 10000000000000), (1, 2508180826870, 10000000000000),
  (1, 2779045375170, 10000000000000), (1, 3079161244880, 10000000000000), (1, 2740453507950, 10000000000000), (1, 3036401748050, 10000000000000),
  (1, 2702397555760, 10000000000000), (1, 2994236041030, 10000000000000), (1, 3317590874170, 10000000000000), (1, 3675865582260, 10000000000000),
  (1, 3271520368210, 10000000000000), (1, 3624819810300, 10000000000000), (1, 3226089631170, 10000000000000), (1, 2871219771740, 10000000000000),
  (1, 3181289778740, 10000000000000), (1, 2831347903080, 10000000000000), (1, 2519899633740, 10000000000000), (1, 2792029724500, 10000000000000),
  (1, 3093547805680, 10000000000000), (1, 3427627557850, 10000000000000), (1, 3050588526490, 10000000000000), (1, 3380029001600, 10000000000000),
  (1, 3008225811430, 10000000000000), (1, 2677320972170, 10000000000000), (1, 2382815665230, 10000000000000), (1, 2640141724790, 10000000000000),
  (1, 2349726135070, 10000000000000), (1, 2091256260210, 10000000000000), (1, 2317096110450, 10000000000000), (1, 2567324955430, 10000000000000),
  (1, 2284919210340, 10000000000000), (1, 2033578097200, 10000000000000), (1, 1809884506510, 10000000000000), (1, 2005338336660, 10000000000000),
  (1, 2221899701350, 10000000000000), (1, 1977490734200, 10000000000000), (1, 1759966753440, 10000000000000), (1, 1566370410560, 10000000000000),
  (1, 1735526561180, 10000000000000), (1, 1544618639450, 10000000000000), (1, 1711425763400, 10000000000000), (1, 1896246794400, 10000000000000),
  (1, 1687659647020, 10000000000000), (1, 1869914117300, 10000000000000), (1, 1664223564400, 10000000000000), (1, 1843947115110, 10000000000000),
  (1, 1641112932450, 10000000000000), (1, 1818340709810, 10000000000000), (1, 2014707745930, 10000000000000), (1, 2232280935910, 10000000000000),
  (1, 1986730032960, 10000000000000), (1, 1768189729340, 10000000000000), (1, 1573688859110, 10000000000000), (1, 1400583084610, 10000000000000),
  (1, 1246518945300, 10000000000000), (1, 1109401861320, 10000000000000), (1, 987367656573, 10000000000000), (1, 1093995891440, 10000000000000),
  (1, 973656343385, 10000000000000), (1, 1078803860190, 10000000000000), (1, 1195306513100, 10000000000000), (1, 1063822796660, 10000000000000),
  (1, 946802289026, 10000000000000), (1, 842654037233, 10000000000000), (1, 749962093137, 10000000000000),
  (1, 667466262892, 10000000000000), (1, 594044973974, 10000000000000), (1, 658197335647, 10000000000000),
  (1, 585795628726, 10000000000000), (1, 521358109566, 10000000000000), (1, 464008717514, 10000000000000),
  (1, 514118147556, 10000000000000), (1, 569639016833, 10000000000000), (1, 506978724981, 10000000000000),
  (1, 561728590649, 10000000000000), (1, 499938445677, 10000000000000), (1, 553928014458, 10000000000000),
  (1, 492995932868, 10000000000000), (1, 546235762804, 10000000000000), (1, 486149828895, 10000000000000),
  (1, 486149828895, 8700000000000), (1, 486149828895, 9834274135660), (1, 486149828895, 8555818498020),
  (1, 486149828895, 9671294777530), (1, 486149828895, 8414026456450),
  (1, 486149828895, 7320203017110), (1, 486149828895, 6368576624890),
  (1, 486149828895, 7198888319900), (1, 486149828895, 6263032838310),
  (1, 486149828895, 5448838569330), (1, 486149828895, 4740489555320),
  (1, 486149828895, 4124225913130), (1, 486149828895, 4661927382420),
  (1, 486149828895, 4055876822710), (1, 486149828895, 3528612835760),
  (1, 486149828895, 3069893167110), (1, 486149828895, 2670807055380),
  (1, 486149828895, 2323602138180), (1, 486149828895, 2021533860220),
  (1, 486149828895, 1758734458390), (3, 486149828895, 1530098978800),
  (1, 486149828895, 1729587679570), (13, 486149828895, 1504741281220)]

/-- What `replacement` said after each generation of voc.log but the last, in groups: how often
yes, then how often no. -/
def vocKept : List (ℕ × ℕ) := [
  (37, 1), (9, 1), (3, 1), (4, 1), (7, 1), (3, 1), (1, 2), (1, 4), (4, 3), (1, 6), (1, 1), (1, 1), (1, 1), (1, 4),
  (1, 4), (1, 3), (1, 3), (1, 1), (1, 4), (3, 4), (1, 1), (5, 3), (2, 1), (1, 1), (2, 3), (2, 1), (1, 1), (2, 1),
  (2, 1), (1, 3), (4, 3), (1, 3), (5, 1), (4, 2), (3, 2), (2, 1), (1, 2), (5, 1), (1, 1), (1, 1), (1, 2), (2, 2),
  (1, 1), (6, 5), (1, 1), (1, 1), (4, 1), (1, 3), (1, 1), (2, 2), (2, 2), (1, 2), (1, 2), (2, 1), (4, 3), (2, 2),
  (1, 1), (1, 1), (5, 2), (1, 1), (2, 1), (2, 3), (2, 4), (3, 1), (3, 1), (1, 1), (1, 1), (1, 1), (1, 2), (3, 1),
  (2, 2), (3, 1), (1, 2), (2, 2), (1, 1), (1, 1), (2, 2), (3, 2), (1, 1), (3, 1), (1, 2), (1, 1), (4, 1), (2, 4),
  (1, 1), (5, 1), (1, 4), (1, 1), (2, 2), (4, 1), (2, 4), (1, 1), (1, 2), (1, 1), (2, 1), (1, 2), (2, 1), (4, 1),
  (1, 5), (3, 2), (1, 4), (2, 2), (1, 4), (1, 10), (1, 3), (1, 338)]

/-- The mutation ranges printed in voc.log, in units of the 13th decimal, with
the number of generations in a row that have them. -/
def vocRanges : List (ℕ × ℕ × ℕ) := [
  (38, 5000000000000, 10000000000000), (1, 4450000000000, 10000000000000), (1, 4930566324020, 10000000000000), (8, 5000000000000, 10000000000000), (1, 4450000000000, 10000000000000),
  (1, 4930566324020, 10000000000000), (2, 5000000000000, 10000000000000), (1, 4450000000000, 10000000000000), (1, 4930566324020, 10000000000000), (3, 5000000000000, 10000000000000),
  (1, 4450000000000, 10000000000000), (1, 4930566324020, 10000000000000), (6, 5000000000000, 10000000000000), (1, 4450000000000, 10000000000000), (1, 4930566324020, 10000000000000),
  (2, 5000000000000, 10000000000000), (1, 4450000000000, 10000000000000), (1, 4930566324020, 10000000000000), (1, 4388204028380, 10000000000000),
  (1, 3905501585260, 10000000000000), (1, 4327266201050, 10000000000000), (1, 3851266918930, 10000000000000), (1, 3427627557850, 10000000000000),
  (1, 3050588526490, 10000000000000), (1, 2715023788570, 10000000000000), (1, 3008225811430, 10000000000000), (1, 3333091433900, 10000000000000),
  (1, 3693040085140, 10000000000000), (1, 4091860466750, 10000000000000), (1, 3641755815410, 10000000000000), (1, 3241162675710, 10000000000000),
  (1, 2884634781390, 10000000000000), (1, 3196153507910, 10000000000000), (1, 2844576622040, 10000000000000), (1, 2531673193610, 10000000000000),
  (1, 2253189142320, 10000000000000), (1, 2005338336660, 10000000000000), (1, 1784751119630, 10000000000000), (1, 1588428496470, 10000000000000),
  (1, 1759966753440, 10000000000000), (1, 1566370410560, 10000000000000), (1, 1735526561180, 10000000000000), (1, 1544618639450, 10000000000000),
  (1, 1711425763400, 10000000000000), (1, 1523168929430, 10000000000000), (1, 1687659647020, 10000000000000), (1, 1502017085840, 10000000000000),
  (1, 1336795206400, 10000000000000), (1, 1189747733700, 10000000000000), (1, 1058875482990, 10000000000000), (1, 1173226021970, 10000000000000),
  (1, 1044171159550, 10000000000000), (1, 929312332002, 10000000000000), (1, 827087975481, 10000000000000),
  (1, 736108298178, 10000000000000), (1, 815602423782, 10000000000000), (1, 725886157166, 10000000000000),
  (1, 646038679878, 10000000000000), (1, 574974425091, 10000000000000), (1, 637067311804, 10000000000000),
  (1, 566989907505, 10000000000000), (1, 566989907505, 8700000000000), (1, 566989907505, 7569000000000),
  (1, 566989907505, 8555818498020), (1, 566989907505, 7443562093280),
  (1, 566989907505, 8414026456450), (1, 566989907505, 7320203017110),
  (1, 566989907505, 6368576624890), (1, 566989907505, 5540661663650),
  (1, 566989907505, 4820375647380), (1, 566989907505, 5448838569330),
  (1, 566989907505, 6159238185260), (1, 566989907505, 6962257101230),
  (1, 566989907505, 6057163678070), (1, 566989907505, 5269732399920),
  (1, 566989907505, 4584667187930), (1, 566989907505, 3988660453500),
  (1, 566989907505, 4508687394690), (1, 566989907505, 3922558033380),
  (1, 566989907505, 4433966783130), (1, 566989907505, 5012051132610),
  (1, 566989907505, 5665504002310), (1, 566989907505, 6404151663840),
  (1, 566989907505, 7239101502130), (1, 566989907505, 6298018306850),
  (1, 566989907505, 5479275926960), (1, 566989907505, 4766970056460),
  (1, 566989907505, 5388470153070), (1, 566989907505, 6090999155980),
  (1, 566989907505, 5299169265710), (1, 566989907505, 5990055546000),
  (1, 566989907505, 5211348325020), (1, 566989907505, 5890784832720),
  (1, 566989907505, 6658803783810), (1, 566989907505, 5793159291920),
  (1, 566989907505, 5040048583970), (1, 566989907505, 4384842268050),
  (1, 566989907505, 4956521943180), (1, 566989907505, 5602735120530),
  (1, 566989907505, 4874379554860), (1, 566989907505, 5509883308480),
  (1, 566989907505, 4793598478380), (1, 566989907505, 5418570291110),
  (1, 566989907505, 6125023639790), (1, 566989907505, 5328770566610),
  (1, 566989907505, 6023516156100), (1, 566989907505, 6808840131000),
  (1, 566989907505, 5923690913970), (1, 566989907505, 6696000039420),
  (1, 566989907505, 5825520034290), (1, 566989907505, 5068202429830),
  (1, 566989907505, 4409336113950), (1, 566989907505, 4984209207000),
  (1, 566989907505, 5634032148400), (1, 566989907505, 6368576624890),
  (1, 566989907505, 7198888319900), (1, 566989907505, 6263032838310),
  (1, 566989907505, 5448838569330), (1, 566989907505, 4740489555320),
  (1, 566989907505, 5358537221180), (1, 566989907505, 4661927382420),
  (1, 566989907505, 4055876822710), (1, 566989907505, 3528612835760),
  (1, 566989907505, 3988660453500), (1, 566989907505, 4508687394690),
  (1, 566989907505, 5096513543830), (1, 566989907505, 5760978313350),
  (1, 566989907505, 6512073565870), (1, 566989907505, 5665504002310),
  (1, 566989907505, 6404151663840), (1, 566989907505, 7239101502130),
  (1, 566989907505, 8182909042280), (1, 566989907505, 9249766752750),
  (1, 566989907505, 8047297074890), (1, 566989907505, 7001148455160),
  (1, 566989907505, 7913932548560), (1, 566989907505, 8945722088920), (1, 566989907505, 10000000000000),
  (1, 566989907505, 8700000000000), (1, 566989907505, 7569000000000), (1, 566989907505, 8555818498020),
  (1, 566989907505, 9671294777530), (1, 566989907505, 8414026456450),
  (1, 566989907505, 9511016408900), (1, 566989907505, 8274584275750),
  (1, 566989907505, 7198888319900), (1, 566989907505, 8137453012630),
  (1, 566989907505, 9198384332440), (1, 566989907505, 10000000000000), (1, 628220526743, 10000000000000),
  (1, 696063589486, 10000000000000), (1, 619496594643, 10000000000000), (1, 686397538739, 10000000000000),
  (1, 610893809478, 10000000000000), (1, 676865717880, 10000000000000), (1, 602410488913, 10000000000000),
  (1, 667466262892, 10000000000000), (1, 594044973974, 10000000000000), (1, 594044973974, 8700000000000),
  (1, 594044973974, 9834274135660), (1, 594044973974, 10000000000000), (1, 594044973974, 8700000000000),
  (1, 594044973974, 7569000000000), (1, 594044973974, 8555818498020), (1, 594044973974, 7443562093280),
  (1, 594044973974, 8414026456450), (1, 594044973974, 9511016408900), (1, 594044973974, 10000000000000),
  (1, 658197335647, 10000000000000), (1, 729277666899, 10000000000000), (1, 808034136016, 10000000000000),
  (1, 719150381054, 10000000000000), (1, 640043839138, 10000000000000), (1, 569639016833, 10000000000000),
  (1, 569639016833, 8700000000000), (1, 569639016833, 7569000000000), (1, 569639016833, 8555818498020),
  (1, 569639016833, 7443562093280), (1, 569639016833, 8414026456450),
  (1, 569639016833, 7320203017110), (1, 569639016833, 8274584275750),
  (1, 569639016833, 9353394267390), (1, 569639016833, 10000000000000), (1, 631155719830, 10000000000000),
  (1, 561728590649, 10000000000000), (1, 622391027481, 10000000000000), (1, 553928014458, 10000000000000),
  (1, 553928014458, 8700000000000), (1, 553928014458, 7569000000000), (1, 553928014458, 8555818498020),
  (1, 553928014458, 7443562093280), (1, 553928014458, 8414026456450),
  (1, 553928014458, 9511016408900), (1, 553928014458, 8274584275750),
  (1, 553928014458, 7198888319900), (1, 553928014458, 8137453012630),
  (1, 553928014458, 9198384332440), (1, 553928014458, 8002594369230),
  (1, 553928014458, 6962257101230), (1, 553928014458, 7869970682350),
  (1, 553928014458, 6846874493640), (1, 553928014458, 5956780809470),
  (1, 553928014458, 6733404074290), (1, 553928014458, 5858061544630),
  (1, 553928014458, 5096513543830), (1, 553928014458, 5760978313350),
  (1, 553928014458, 6512073565870), (1, 553928014458, 5665504002310),
  (1, 553928014458, 6404151663840), (1, 553928014458, 7239101502130),
  (1, 553928014458, 8182909042280), (1, 553928014458, 9249766752750),
  (1, 553928014458, 8047297074890), (1, 553928014458, 7001148455160),
  (1, 553928014458, 6090999155980), (1, 553928014458, 6885121317240),
  (1, 553928014458, 7782778217360), (1, 553928014458, 6771017049110),
  (1, 553928014458, 5890784832720), (1, 553928014458, 6658803783810),
  (1, 553928014458, 5793159291920), (1, 553928014458, 6548450182560),
  (1, 553928014458, 5697151658830), (1, 553928014458, 6439925425900),
  (1, 553928014458, 7279539316270), (1, 553928014458, 8228618990510),
  (1, 553928014458, 9301436196620), (1, 553928014458, 10000000000000), (1, 553928014458, 8700000000000),
  (1, 553928014458, 7569000000000), (1, 553928014458, 8555818498020), (1, 553928014458, 7443562093280),
  (1, 553928014458, 8414026456450), (1, 553928014458, 9511016408900),
  (1, 553928014458, 8274584275750), (1, 553928014458, 9353394267390), (1, 553928014458, 10000000000000),
  (1, 553928014458, 8700000000000), (1, 553928014458, 7569000000000), (1, 553928014458, 6585030000000),
  (1, 553928014458, 7443562093280), (1, 553928014458, 8414026456450),
  (1, 553928014458, 7320203017110), (1, 553928014458, 6368576624890),
  (1, 553928014458, 5540661663650), (1, 553928014458, 4820375647380),
  (1, 553928014458, 5448838569330), (1, 553928014458, 6159238185260),
  (1, 553928014458, 6962257101230), (1, 553928014458, 6057163678070),
  (1, 553928014458, 6846874493640), (1, 553928014458, 7739544912980),
  (1, 553928014458, 8748598432130), (1, 553928014458, 7611280635950),
  (1, 553928014458, 8603611528430), (1, 553928014458, 7485142029740),
  (1, 553928014458, 8461027432730), (1, 553928014458, 7361093866480),
  (1, 553928014458, 8320806324280), (1, 553928014458, 7239101502130),
  (1, 553928014458, 8182909042280), (1, 553928014458, 7119130866780),
  (1, 553928014458, 6193643854100), (1, 553928014458, 7001148455160),
  (1, 553928014458, 7913932548560), (1, 553928014458, 8945722088920),
  (1, 553928014458, 7782778217360), (1, 553928014458, 8797468336390),
  (1, 553928014458, 9944450036770), (1, 553928014458, 8651671531990),
  (1, 553928014458, 7526954232830), (1, 553928014458, 8508290957720),
  (1, 553928014458, 9617570770600), (1, 553928014458, 10000000000000), (1, 553928014458, 8700000000000),
  (1, 553928014458, 9834274135660), (1, 553928014458, 8555818498020),
  (1, 553928014458, 7443562093280), (1, 553928014458, 8414026456450),
  (1, 553928014458, 9511016408900), (1, 553928014458, 8274584275750),
  (1, 553928014458, 7198888319900), (1, 553928014458, 8137453012630),
  (1, 553928014458, 7079584120990), (1, 553928014458, 8002594369230),
  (1, 553928014458, 6962257101230), (1, 553928014458, 7869970682350),
  (1, 553928014458, 8896028635610), (1, 553928014458, 7739544912980),
  (1, 553928014458, 6733404074290), (1, 553928014458, 7611280635950),
  (1, 553928014458, 8603611528430), (1, 553928014458, 9725318888200),
  (1, 553928014458, 8461027432730), (1, 553928014458, 7361093866480),
  (1, 553928014458, 8320806324280), (1, 553928014458, 7239101502130),
  (1, 553928014458, 8182909042280), (1, 553928014458, 9249766752750), (1, 553928014458, 10000000000000),
  (1, 553928014458, 8700000000000), (1, 553928014458, 9834274135660), (1, 553928014458, 8555818498020),
  (1, 553928014458, 7443562093280), (1, 553928014458, 8414026456450),
  (1, 553928014458, 7320203017110), (1, 553928014458, 8274584275750),
  (1, 553928014458, 9353394267390), (1, 553928014458, 10000000000000), (1, 613748048094, 10000000000000),
  (1, 613748048094, 8700000000000), (1, 613748048094, 9834274135660), (1, 613748048094, 10000000000000),
  (1, 613748048094, 8700000000000), (1, 613748048094, 7569000000000), (1, 613748048094, 6585030000000),
  (1, 613748048094, 5728976100000), (1, 613748048094, 6475899021150),
  (1, 613748048094, 5634032148400), (1, 613748048094, 6368576624890),
  (1, 613748048094, 7198888319900), (1, 613748048094, 8137453012630),
  (1, 613748048094, 9198384332440), (1, 613748048094, 10000000000000), (1, 613748048094, 8700000000000),
  (1, 613748048094, 9834274135660), (1, 613748048094, 8555818498020),
  (1, 613748048094, 7443562093280), (1, 613748048094, 6475899021150),
  (1, 613748048094, 5634032148400), (1, 613748048094, 6368576624890),
  (1, 613748048094, 5540661663650), (1, 613748048094, 6263032838310),
  (1, 613748048094, 7079584120990), (1, 613748048094, 6159238185260),
  (1, 613748048094, 5358537221180), (1, 613748048094, 6057163678070),
  (1, 613748048094, 6846874493640), (1, 613748048094, 7739544912980),
  (1, 613748048094, 8748598432130), (1, 613748048094, 7611280635950),
  (1, 613748048094, 8603611528430), (1, 613748048094, 9725318888200),
  (1, 613748048094, 8461027432730), (1, 613748048094, 7361093866480),
  (1, 613748048094, 6404151663840), (1, 613748048094, 5571611947540),
  (1, 613748048094, 6298018306850), (1, 613748048094, 5479275926960),
  (1, 613748048094, 6193643854100), (1, 613748048094, 5388470153070),
  (1, 613748048094, 4687969033170), (1, 613748048094, 5299169265710),
  (1, 613748048094, 4610277261160), (1, 613748048094, 5211348325020),
  (1, 613748048094, 5890784832720), (1, 613748048094, 5124982804470),
  (1, 613748048094, 5793159291920), (1, 613748048094, 5040048583970),
  (1, 613748048094, 4384842268050), (1, 613748048094, 4956521943180),
  (1, 613748048094, 5602735120530), (1, 613748048094, 4874379554860),
  (1, 613748048094, 5509883308480), (1, 613748048094, 6228241713920),
  (1, 613748048094, 7040257057220), (1, 613748048094, 7958139986930),
  (1, 613748048094, 6923581788630), (1, 613748048094, 7826253024140),
  (1, 613748048094, 6808840131000), (1, 613748048094, 5923690913970),
  (1, 613748048094, 5153611095150), (1, 613748048094, 4483641652780),
  (1, 613748048094, 3900768237920), (1, 613748048094, 4409336113950),
  (1, 613748048094, 4984209207000), (1, 613748048094, 5634032148400),
  (1, 613748048094, 4901607969110), (1, 613748048094, 4264398933130),
  (1, 613748048094, 4820375647380), (1, 613748048094, 4193726813220),
  (1, 613748048094, 3648542327500), (1, 613748048094, 3174231824930),
  (1, 613748048094, 2761581687690), (1, 613748048094, 3121626593650),
  (1, 613748048094, 3528612835760), (1, 613748048094, 3069893167110),
  (1, 613748048094, 2670807055380), (1, 613748048094, 3019017097250),
  (1, 613748048094, 2626544874610), (1, 613748048094, 2285094040910),
  (2, 613748048094, 1988031815590), (1, 613748048094, 2247224122410),
  (10, 613748048094, 1955084986490), (1, 613748048094, 2209981806400),
  (3, 613748048094, 1922684171570), (1, 613748048094, 2173356691900),
  (338, 613748048094, 1890820321950)]

/-- A range manager for the default range. -/
def manager (c : Consts ℚ) : FM ℚ := init c (.range (1 / 2) 1) true

/-- goldstein-price.log, 48 generations. -/
example : agree (ranges gpConsts (manager gpConsts) (requests gpKept)) (all gpRanges) = true ∧
    (all gpRanges).length = 48 := by decide +kernel

/-- thermistor.log, 854 generations. -/
example : agree (ranges thermistorConsts (manager thermistorConsts) (requests thermistorKept)) (all thermistorRanges) = true ∧
    (all thermistorRanges).length = 854 := by decide +kernel

/-- voc.log, 800 generations. -/
example : agree (ranges vocConsts (manager vocConsts) (requests vocKept)) (all vocRanges) = true ∧
    (all vocRanges).length = 800 := by decide +kernel

/-- A generation of an undisturbed run, with the answer of `replacement`. -/
def generation (keep : Bool) : RunLoop.Env := ⟨true, fun _ => 0, fun _ => some 0, fun _ => true, true, true, keep, true⟩

/-- The answer after generation `k`, told by groups; there was too little improvement after the last one again. -/
def answer : List (ℕ × ℕ) → ℕ → Bool
  | [], _ => false
  | (yes, no) :: kept, k => if k < yes then true else if k < yes + no then false else answer kept (k - (yes + no))

/-- The end of the run of thermistor.log, for 2000 generations at most and `dwellByGrave=12`; the challenges are left out. -/
example : (RunLoop.run ⟨2000, 0, false, 12, false, none⟩ thermistorConsts (fun k => generation (answer thermistorKept k))
    (.range (1 / 2) 1) true).2 = .gaveUp 853 := by decide +kernel

/-- The run of voc.log, of 800 generations at most, went on to the end: it must have been told to (`bitterEnd`), as otherwise
it would have ended sooner. -/
example : (RunLoop.run ⟨800, 0, true, 5, true, none⟩ vocConsts (fun k => generation (answer vocKept k))
      (.range (1 / 2) 1) true).2 = .maximum ∧
    (RunLoop.run ⟨800, 0, true, 5, false, none⟩ vocConsts (fun k => generation (answer vocKept k))
      (.range (1 / 2) 1) true).2 = .gaveUp 452 := by decide +kernel

end Logs
end FManager

namespace LogText
namespace Logs

/-- The end of goldstein-price.log (lines 265-282). -/
def gpEnd : List Str := ([
  "Challengers failing too much, stopped",
  "",
  "SSE=2.99995 with x=5.48081e-05 y=-1.00001",
  "",
  "",
  "Final population:",
  "Population: Top 7 of 40 individuals",
  "",
  "        SSE |     2.99995     2.99996     2.99996     2.99996     2.99996     2.99996     2.99996",
  "----------------------------------------------------------------------------------------------------",
  "          x |  5.4808e-05  0.00010795  7.8382e-05  4.3496e-05  3.0218e-05  0.00010222  0.00010821",
  "          y |          -1          -1    -0.99999          -1          -1          -1          -1",
  "----------------------------------------------------------------------------------------------------",
  "Best individual:",
  "<SSE=2.9999 x=5.48081e-05 y=-1.00001>",
  "",
  "",
  "Elapsed time: 0.68 seconds"] : List String).map String.toList

/-- What the log grepper finds in it: the individual reported last, the best one of the final table, and the columns of
that table. -/
example : (filerator LogNumbers.float gpEnd).failed = false ∧
    (filerator LogNumbers.float gpEnd).yields.map (fun e => (e.1, e.2.map fun i => (i.name, i.value, i.stars))) = ([
    (59999 / 20000, [("x", "5.48081e-05", ""), ("y", "-1.00001", "")]),
    (29999 / 10000, [("x", "5.48081e-05", ""), ("y", "-1.00001", "")]),
    (59999 / 20000, [("x", "5.4808e-05", ""), ("y", "-1", "")]),
    (74999 / 25000, [("x", "0.00010795", ""), ("y", "-1", "")]),
    (74999 / 25000, [("x", "7.8382e-05", ""), ("y", "-0.99999", "")]),
    (74999 / 25000, [("x", "4.3496e-05", ""), ("y", "-1", "")]),
    (74999 / 25000, [("x", "3.0218e-05", ""), ("y", "-1", "")]),
    (74999 / 25000, [("x", "0.00010222", ""), ("y", "-1", "")]),
    (74999 / 25000, [("x", "0.00010821", ""), ("y", "-1", "")])] : List (ℚ × List (String × String × String))).map
      fun e => (e.1, e.2.map fun i => (i.1.toList, i.2.1.toList, i.2.2.toList)) := by
  decide +kernel

/-- The best individual in thermistor.log (lines 48-51), whose lines have at most 100 characters. -/
def thermistorBest : List Str := ([
  "<SSE=1915794623192.4712 A=0.00111372 B=0.000245015 C=1.60915e-08 D=1.99797e-08** a1=0.618719*",
  "a2=0.962638 a3=0.773081 a4=1.28616 a5=1.37194** a6=0.660069 b1=1.19234 b2=1.0368 b3=0.724116",
  "b4=0.663887 b5=0.761364 b6=1.01998 c1=3.75364 c2=0.717369* c3=12.101 c4=0.455874* c5=14.9457",
  "c6=0.451546* d1=0.471584* d2=8.57585 d3=14.525 d4=9.45824 d5=15.1722 d6=9.01342>"] : List String).map String.toList

/-- Its words, without the brackets. -/
def thermistorWords : List Str := ([
  "SSE=1915794623192.4712", "A=0.00111372", "B=0.000245015", "C=1.60915e-08", "D=1.99797e-08**", "a1=0.618719*",
  "a2=0.962638", "a3=0.773081", "a4=1.28616", "a5=1.37194**", "a6=0.660069", "b1=1.19234", "b2=1.0368",
  "b3=0.724116", "b4=0.663887", "b5=0.761364", "b6=1.01998", "c1=3.75364", "c2=0.717369*", "c3=12.101",
  "c4=0.455874*", "c5=14.9457", "c6=0.451546*", "d1=0.471584*", "d2=8.57585", "d3=14.525", "d4=9.45824",
  "d5=15.1722", "d6=9.01342"] : List String).map String.toList

example : bracket (fill 100 thermistorWords) = thermistorBest := by decide +kernel

/-- The same individual in the lines of the present version: 120 characters. -/
example : (bracket (fill maxLineLength thermistorWords)).map List.length = [117, 114, 115, 11] := by decide +kernel

end Logs
end LogText

namespace TimeData
namespace Logs

/-- The ranges of the thermistor example (ade/examples/thermistor.py:81-82). -/
def ranges : List Range :=
  [(0, some 213), (442, some 2920), (3302, some 6000), (6550, some 7000), (7200, some 8210), (8280, some 8345), (8380, none)]

/-- thermistor.log, line 3: "Read 6849 of 8215 data points". -/
example : ((select ranges 0 0 (List.replicate 8215 (0, []))).1.length = 6849) := by decide +kernel

/-- voc.log, line 3: "Read 2453 of 2453 data points". -/
example : ((select [] 0 0 (List.replicate 2453 (0, []))).1.length = 2453) := by decide +kernel

end Logs
end TimeData

namespace GpSingle
namespace Logs

/-- The individuals reported in goldstein-price.log: score, `x` and `y` to 6 digits. -/
def reported : List (ℚ × ℚ × ℚ) := [
  (1599684961 / 100000, -172497 / 100000, -176103 / 250000), (1930087 / 5000, 145741 / 200000, -176103 / 250000),
  (983389 / 12500, -241021 / 1000000, -69927 / 125000), (34999 / 3125, -112931 / 1000000, -443413 / 500000),
  (706943 / 100000, 88847 / 5000000, -226237 / 250000), (21701 / 4000, 12607 / 125000, -950543 / 1000000),
  (427777 / 100000, 719971 / 10000000, -197559 / 200000), (105249 / 25000, 77453 / 2000000, -945739 / 1000000),
  (335463 / 100000, -154007 / 50000000, -971827 / 1000000), (312237 / 100000, 98843 / 5000000, -197167 / 200000),
  (151973 / 50000, 189641 / 100000000, -100891 / 100000), (150051 / 50000, 264217 / 500000000, -998397 / 1000000),
  (300049 / 100000, 14503 / 10000000, -999849 / 1000000),
  (299999 / 100000, 166297 / 1000000000, -999849 / 1000000),
  (59999 / 20000, 548081 / 10000000000, -100001 / 100000)]

/-- The scores are those of the model, as far as the digits written allow. -/
example : reported.all (fun r => |gp r.2.1 r.2.2 - r.1| ≤ r.1 / 20000) = true := by decide +kernel

end Logs
end GpSingle
end Ade
