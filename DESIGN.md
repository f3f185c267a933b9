# Formal model of `ade` (asynchronous differential evolution) in Lean 4

Source of truth: `/repo` (edsuom/ade at the pinned commit), read as text, never run.
Lean project: `/verif/lean` (Lean 4.33.0; single Mathlib modules are imported, never all of Mathlib).

## Layout

* `Verif/Model/*.lean`: executable definitions.  Each cites the file and lines it models and lists its simplifications.
* `Verif/Lemmas/*.lean`: helper lemmas about the models.
* `Verif/Spec/*.lean`: larger specifications used by the property theorems, independent of the models' helpers.
* `Verif/Props/*.lean`: for each property a specification, the theorem(s), and an `example` with a concrete
  non-trivial instance of the hypotheses.
* `Verif/Conformance/*.lean`: the deterministic tests of the repository (`ade/test/test_*.py`), repeated on the model with the
  inputs and the results expected there, as `example`s.  They are tests of how faithful the model is, not proofs, and count for no
  property.  Left out are the tests that only run the optimizer with random numbers or measure time. `Logs.lean` compares the model with the logs of the examples
  recorded in the repository: mutation ranges of 1702 generations, the end of a run, tables, and what the log grepper reads.
* `seeded/LOG.jsonl`: faults seeded in scratch copies of the model, one JSON line each: the definition edited, the edit,
  the claim it breaks, the declarations that stopped compiling, the theorems added or tightened because of it
  (then `after_tightening_failed` lists what the same fault breaks afterwards).

## Trusted base

* The Lean kernel, and the axioms `propext`, `Classical.choice`, `Quot.sound` (a subset for each theorem; see the
  last section).  No own axioms, no `sorry`, no `native_decide`, no `bv_decide`.
* The reading of the Python text by the author of the model (nothing machine-checks model against code).
* External contracts, which are not part of /repo and are assumed:
  * Python floats: special values (`nan`, `inf`, `-inf`) and their comparisons are modelled exactly; finite values are
    exact rationals (or reals where `sqrt`, `sin`, powers occur): **no rounding**, except in the modules with names that end in `Rounded` and in `Rounding`, `Single`, `GpSingle`, `WideBounds` and `MachineRandom`, which treat the same code once more with rounded arithmetic.  Storing in a float32 array is, for the theorems on the history, an
    arbitrary monotone idempotent rounding function; `Single` (C130) has the actual one and shows that it is such a function.
  * Twisted: code of an `inlineCallbacks` function runs atomically between two `yield`s of unfired Deferreds;
    `DeferredLock` hands the lock to waiters in FIFO order; `DeferredList` fires when all of its Deferreds have.
  * asynqueue's `DeferredTracker` behaves as documented (used by `Population.setup`).
  * numpy `argsort`, `searchsorted`, `clip`, `flatnonzero`, `argmin` behave as documented (NaN sorts last).
  * `random` and `pyDOE.lhs` are arbitrary oracles returning values in their documented ranges: theorems quantify over
    every outcome.  For C77 alone the two `random.random()` results of one sampler call are independent and uniform on [0, 1).
  * Python `list`, `dict`, `set` operations; `pickle` gives back equal values.
  * Text is ASCII where characters are classified or lower-cased (specs files, logs).
  * `str.format` of a number and `float` of a text are given functions (modelled for `f` and `g` in `Model/Format.lean`, and in the reader of specs); `TextWrapper.fill` puts as many words on a line
    as fit (a word longer than a line, which it breaks, is excluded); `re.search` finds the first match, `fnmatch` as documented.
    `[\E]` in a pattern means `E`, as in Python before 3.6 (later versions reject it when lgg.py is imported).

## What is modelled

| code | model | left out |
|------|-------|----------|
| individual.py `Individual` | `Individual`, `Items`, `IdentityKey`, `Ieee754`, `PyFloat`, `Kinds` | arrays of other types than doubles and 64-bit integers |
| population.py `ParameterManager` | `ParamManager`, `ParamBounds`, `Constraints`, `ConstraintSets`, `LogText`, `UnityRounded`, `WideBounds` | nothing |
| population.py `Population` | `Population`, `Sampler`, `Setup`, `Replacement`, `PopHistory`, `Container`, `SaveLoad`, `Resume`, `Generation`, `LogText`, `Summary`, `LogNumbers` (with `Format`), `StatusQuo`, `ReplacementRounded`, `MachineRandom` | in `Setup` the reporter and the history |
| population.py `ProbabilitySampler` | `Sampler`, `SamplerRounded` | overflow, underflow |
| de.py `FManager` | `FManager`, `MachineRandom` | printing |
| de.py `DifferentialEvolution` | `Options`, `Challenge`, `DESystem`, `AbortRun`, `RunLoop`, `RunSystem`, `Session`, `RaisingConstraint`, `Generation`, `ChallengeRounded`, `MachineRandom` | messages |
| history.py `ClosestPairFinder` | `ClosestPair` (arbitrary differences), `Difference` (rows, cached scaling and numeric differences), `PairSampling`, `PairRounded`, `DifferenceRounded` | overflow, underflow |
| history.py `History` | `History`, `PopHistory`, `HistoryLock`, `Single` | in `History` operations are atomic, in request order, which `HistoryLock` justifies (C75) |
| history.py `Analysis` | `Analysis`, `Figures`, `LineFit`, `Correlation`, `QueryRounded`, `LineFitRounded`, `FigureRounded`, `RankRounded` | drawing, rounding of floats except in the last four |
| report.py `Reporter` | `Reporter`, `RatioRounded`, `Registering`, `Progress` | the text of messages; the callback's own computation |
| constraints.py | `Constraints`, `ConstraintSets`, `RelationsRounded` | constraints that raise or that change the lists they are in |
| abort.py | `Abort`, `EnterKey` | the terminal |
| util.py | `Util`, `MessageText` (bag, timer, messenger), `Picklable` | the clock's values |
| specs.py | `Specs`, `SpecNames` | rounding of `float()`, reading the file system (lines are given), names with leading double underscores |
| image.py | `Image` | the file system and the process table (arguments of the events) |
| scripts/lgg.py | `LogText`, `Lgg`, `LggNames`, `LggMain` | `addMatches`, which is never called |
| examples/thermistor.py, voc.py, goldstein-price.c | `Thermistor`, `Voc` (also the Goldstein-Price function), `GpMain`, `GpSingle` (the function in single precision) | rounding (but for `GpSingle`), plotting |
| doc/ade-thermistor-usage.py | `FanControl`, `Thermometer` | rounding, the hardware, the log file; `datetime` is taken for the module |
| examples/goldstein-price.py | `ExecRunner`, `ExecText`, `GpMain` | signals, starting the process |
| examples/thermistor.py, examples/voc.py: runners | `QueueRunner`, `ExampleRun` | the process queue; messages and the log file |
| examples/thermistor.py, examples/voc.py: what is plotted | `ExamplePlots` | titles, labels, annotations; yampex and matplotlib |
| examples/data.py | `TimeData` | download and decompression |
| population.py `lock`, `release` for any use | `Locks` | cancelled Deferreds |
| args.py, scripts/pv.py, scripts/examples.py, `extract_examples` | `Scripts`, `HelpText` | `argparse`, `textwrap`, messages; drawing |
| `limit`, `fromUnity` once more, with rounded arithmetic | `Rounding` | overflow, underflow |
| de.py `FManager` once more, with rounded products | `FRounded` | overflow, underflow |
| arrays shared or not: `update`, `spawn`, `copy`, `__add__` etc., `crossover`, `limit`, `challenge`, `history.add` | `Arrays` | scores; views into numpy matrices |
| `_widthHeight`, `filePath` (dimensions), `makePlotter`, `pv` (dimensions) | `Dims` | `float` on text, `Plotter` |
| `waitForReports`, `waitForCallbacks`, reports at begin and end of a run | `Waiting` | `DeferredTracker` |

## What is not modelled

All Matplotlib/yampex plotting, process and thread queues of `asynqueue`, `stdio`, the wall clock,
pickle's wire format (only which fields are saved and how they are rebuilt), probability distributions other than those of `ProbabilitySampler` and of the crossover (otherwise only supports of random draws and, for the
status quo decision, the probability value itself), setup.py.

## Where the code and its documentation or a property disagree

Each is proved on a witness or in general by the theorems named; property status is then `partial` unless the
statement of the property already excludes the case.

1. With `goalSSE` set, `self.p.best < self.goalSSE` compares a method with a number: TypeError at the end of the
   first generation (`RunLoop.C34_goal_fails`).
2. A complaint about an individual restores only the individual being delivered when the callbacks started
   (`Reporter.C49_first_of_run_not_restored`), and the remembered best gets worse (`Reporter.C46_complaint_forgets`).
   An exception in the complaint handler blocks all later callbacks (`Reporter.C48_failed_handler_blocks`).
3. A NaN score is admitted to a population and to the reporter and is never replaced (`Challenge.C31_nan_never_beaten`,
   `Reporter.C46_nan_best_stays`).
4. `Constraints.__iter__` shares one dict and binds late (`C09_clash_breaks`, `C09_collected_breaks`); once collected, the
   checks see only the first parameter combination (`C09_collected_stale`).
5. After `History.purgePop` a new record may take a row in use (`History.C36_purge_then_add_shares_row`). The record that was there is lost (`C37_lost_after_purge`), it may be in two membership views at once (`C42_views_overlap_after_purge`), and some additions later the record of a current population member is overwritten (`C38_member_overwritten_after_purge`).
6. An exception inside `History.add` leaves the lock held for ever; it happens when all records are members, for tiny
   capacities and when a hash overflows (`History.C39_*`).
7. Membership marks are wrong for duplicates and for members changed in place (`PopHistory.C41_*`), and after loading
   in another process, where hashes differ (`History.C44_other_process_breaks`).  Row numbers are saved in 16 bits.
8. With no eligible row, the closest-pair finder raises instead of returning `None` (`ClosestPair.C43_none_eligible_raises`).
   The preference for evicting never-members is a constant, contrary to its description (`ClosestPair.C60_*`).
9. The last row of the Latin hypercube is never used (`Setup.C19_last_row_never_used`).
10. Biased sampling of two or more indices may never return (`Sampler.C13_small_bias_never_returns`).
11. Two zero scores count as a ratio of 1000, and a perfect score may count less than an imperfect one
    (`Reporter.C47_zero_tie`, `Reporter.C47_perfect_score_smaller_ratio`).
12. `FManager.up` raises the upper limit step by step, not at once (`FManager.C66_one_up_not_enough`); a single F also
    adapts (`FManager.C23_single_adapts`).
13. A run in which every generation brings a new best individual may be scaled down and give up, contrary to the
    documentation of `DifferentialEvolution.__call__` (`Generation.C68_new_best_scaled_down`).
14. `Messenger.lineWritten` is always false (`Messenger.C64_never_true`); message texts 0 and 1 are taken for flags.
15. `EvalTimer` averages clock readings, not durations (`EvalTimer.C55_fails`).
16. A clean shutdown counts as an abort for functions registered later (`Abort.C53_registered_after_shutdown_runs`).
17. `Specs.get` stops at a value that is no dict (`Specs.C50_stops_at_value`); the reader crashes on some inputs with
    errors other than ValueError and silently drops others (`Specs.C52_crashes`, `Specs.C52_vanishes`); texts are lower-cased.
18. The log grepper keeps the worst rows when there are too many, negative reference values never differ
    (`Lgg.C59_*`), and equal scores lose entries (`Lgg.C65_*`).
19. With a best score of zero a ratio query selects nothing (`Analysis.C61_perfect_score_selects_nothing`).
20. The cached ranking is stale after rescoring a member in place and after a query during setup (`Population.C15_*_stale`).
21. Equal individuals may have different hashes: 0.0 and -0.0 (`C03_equal_but_different_key`); a copy of a failed
    individual no longer counts as failed (`C01_copy_forgets_failure`).
22. Loading with new bounds ignores constraints; the counter and the reported best are forgotten (`SaveLoad.C45_*`).
23. Duplicate parameter names break the sorted enumeration (`C10_duplicates_break`).
24. `plotCorrelated` with a name finds only pairs with that parameter in first place
    (`Figures.C71_last_name_shows_nothing`).
25. The portions of an X-Y plot overlap, and by fraction nothing is drawn when all scores are equal
    (`Figures.C72_portions_overlap`, `Figures.C72_equal_scores_draw_nothing`); with a perfect score the line fit has no
    usable weights (`Figures.C73_perfect_score`).
26. Ranges of parameters given to lgg select nothing (`LggNames.C82_range_selects_nothing`); individuals with an infinite
    SSE are not read from a log (`LogText.C80_infinite_lost`).
27. Pickling loses attributes that override a class attribute (`Picklable.C89_overrides_lost`).
28. An image viewer is never told to terminate and never started again, and it does not get its options
    (`Image.C91_never_terminated`, `Image.C91_not_restarted`, `Image.C91_arguments`).
29. The battery voltage example passes its parameters in an order other than the one its curve takes them in
    (`Voc.C96_mixed_parameters`, `Voc.C96_not_documented`).
30. The external-program example mixes up the results of commands in flight (`ExecRunner.C98_mixed_up`,
    `ExecRunner.C98_before_connection`), gives commands to busy runners (`ExecRunner.C98_not_next_free`) and does not shut
    its programs down (`ExecRunner.C98_shutdown_without_effect`).
31. A refused request for locks keeps the locks it took before it was refused (`Locks.C101_refused_keeps_locks`); an index
    named from the front and from the back makes a request wait for itself (`Locks.C101_waits_for_itself`); an index that is
    too large releases all locks (`Locks.C101_too_large_index`).
32. `pv` with `-r` and `-N` for a population with one parameter shows nothing and says that nothing was done
    (`Pv.C102_one_parameter`).
33. `Args` without positional arguments is no empty sequence (`Args.C104_no_positional`), ignores options declared after the
    first access (`Args.C104_declared_late`) and calls with two arguments (`Args.C104_ignored`).
34. An evaluation of the setup that ends when the population is full is dropped, even if it is the best of all; it has been
    reported as the best all the same (`Whole.C106_surplus_lost`).
35. An evaluation function that changes its argument in place (say, to convert a logarithm) changes the individual, whose score then
    does not belong to its values, which may be out of bounds (`Arrays.C107_evaluator_can_alter`). `update` with an array keeps the
    array itself (`Arrays.C107_update_array_shares`).
36. The keyword `dims` of `plot`, `plotCorrelated` and `makePlotter`, documented as the dimensions of PNG files, has no effect on PNG
    files (`Dims.C108_keywords_ignored`).
37. Contrary to the docstring of `DifferentialEvolution` (ade/de.py:216-222), concurrency changes the operations done: base and
    others are chosen when a challenge is issued (ade/de.py:589-593, 513), from a population without the results of the challenges in progress.
    With DE/best/1/bin the run can differ from a blocking one (`C110_best_differs`). Not a defect; property C110 partial.
38. After an exception in `History.add` in a task nobody waits for, the next `waitForReports` (ade/de.py:586, 634, 683) never fires, because
    it waits for the history's lock, and `shutdown` does not help (`C111_blocked_never_ends`). Property C111 partial.
39. The option `uniform` of `DifferentialEvolution` (ade/de.py, class docstring and table of options; also option `-u` of the example
scripts) is never read: the population is initialized before, by `Population.setup(uniform=...)` (C112).
40. `population[k] = i` with `k` too large raises an IndexError, but only after `i` has been added to the history as a member
(ade/population.py:526-547). `individuals` (ade/population.py:1115-1124), documented to return a list, returns the individual itself for one
index and `None` if an index is too large (C113).
41. A second call of a `DifferentialEvolution` object does nothing: `shutdown` at the end of the first run sets `running` to False for good
(ade/de.py:419, 438-439, 587). A challenge that gets its locks after its object was shut down calls `release()` (ade/de.py:518-521), which releases
all locks of the population, also those another object's challenges hold (C114).
42. Repeated calls of `shutdown` of the thermistor and the battery example, documented to have no effect (ade/examples/thermistor.py:325,
ade/examples/voc.py:249), shut the process queue down again until the first one has finished (`QueueRunner.C115_repeated`,
`QueueRunner.C115_aborted`).
43. The external-program example takes a piece of a line for a line, and two lines received together for one (`ExecText.C116_cut`,
`ExecText.C116_two_lines`). Calls of a pool that has been shut down, and a second `shutdown`, never end (`ExecText.C117_waits_for_ever`).
44. The history saves its map from hashes of members to rows, but hashes of bytes differ from process to process, and the hash of a
member differs when new bounds move it (ade/individual.py:189-191, ade/history.py:858). Replacing a member after loading
leaves its record protected for ever; often enough, this fills the history and blocks it (`Resume.C118_blocks`,
`Resume.C118_new_bounds`).
45. `ParameterManager.setup`, and so the keyword `bounds` of `Population.load`, does not count the bounds: a single pair is broadcast
to all parameters (`ParamBounds.C119_one_pair`). Bounds whose upper one is below the lower one are accepted
(`ParamBounds.C119_exchanged`).
46. The number of individuals in the printed population is `Np`, also when there are fewer (`Summary.C120_number_aborted`).
If the score of the first member is NaN, so are both ends of the range printed (`Summary.C120_nan_first`).
47. The thermistor and battery programs do not end if something fails before or in the run, as `run` only prints the
failure (`ExampleRun.C123_hangs`); `--uniform` has no effect (`ExampleRun.C123_uniform_ignored`); file names of one
character mean that no file is written (`ExampleRun.C123_short_name`).
48. A list of constraints given to the constructor of a population is kept by reference (`ConstraintSets.C124_list`), the
default one is shared by all populations (`ConstraintSets.C124_shared_default`), a generator is used up by the first
check (`ConstraintSets.C124_generator`); `Constraints` objects cannot append in `setup`
(`ConstraintSets.C124_no_container`) and need sets of names (`ConstraintSets.C124_names_list`).
49. With a perfect best score no line can be fitted: its weight is 0/0 (`LineFit.C125_perfect`).
50. A parameter that never changes has no correlation coefficient, and the NaN makes the order of the pairs wrong: pairs
without a coefficient may be shown first and highly correlated ones last (`Correlation.C126_constant`).
51. At the end of its input, and at a text that is not a number, the Goldstein-Price program prints its last value again and again (`GpMain.C127_end_of_input`, `GpMain.C127_junk`); the documentation of the C file says nothing about it. If the program has not been compiled, the example waits for ever (`GpMain.C127_not_compiled`).
52. A negative value below 0.0001 in magnitude takes eleven characters in the final table, whose columns are ten wide, and shifts the rest of its row (`Format.C128_too_wide`). `Individual.__repr__` prints scores with four decimals whatever their size: with small scores, the log grepper reads 0 for the best entry and leaves out all others (`Format.C128_fixed_zero`, `Format.C128_small_scores`).
53. The documentation of `N_max` in `History` says that adding to a full roster bumps the highest-SSE record. The record removed is the lower row of a closest pair, whatever the scores: it can be the best record (`Eviction.C131_best_goes_worst_stays`), and the record that filled the roster is in the last row and never removed (`Eviction.C131_filling_record_stays`).
54. `Population.sample` says in its `ValueError` that `randomBase` must be between 0.0 and 1.0, but lets negative numbers through. The variate is then negative and Python counts the position from the end, so the base is the best member or one of the worst (`Sampler.C133_negative_accepted`, `Sampler.C133_negative_worst`); below -0.5 some draws raise an `IndexError` (`Sampler.C133_negative_index_error`).
55. `ProbabilitySampler.__call__` takes for granted that its variate is below one. With a `randomBase` closer to one than 2^-26, but not one, `trapz` can return exactly 1.0 by rounding, and the request ends in an `IndexError` (`SamplerRounded.C134_index_error`). The probability is so low that it will not be seen.
56. The documentation of `Population.replacement` says that in small populations keeping the status quo "will sometimes happen even with no improvements for a given generation". Without improvements the score is zero and the chance is exactly zero, whatever the size (`StatusQuo.C135_no_improvement_never`). (The class documentation also speaks of a default target fraction of 2.5%; it is 2%.)
57. The documentation of `bitterEnd` says that `ade` normally quits once there are too few successful challenges, and that of `FManager.get` that without adaptation "the adapting is done just to determine if my (hidden) F value has reached its lower limit". Without adaptation nothing is adapted, no limit is ever reported, and an undisturbed run makes all its generations (`RunLoop.C136_fixed_never_stops`, `FManager.C137_fixed_no_limit`).
58. The documentation of `FManager` says that a single F value "will shrink slower than the lower end of a uniform random variate range"; both have the scale 0.89 and are equal after any number of requests to scale down (`FManager.C137_same_speed`).
59. `Reporter.msgRatio` is documented to treat the target as better if the challenger's score is bogus, but returns the ratio 0, which counts as a (slight) success. Once all evaluations fail (return `None`, infinity or NaN), every generation is a success, the mutation range is scaled up, and the run goes on to its maximum number of generations (`Generation.C138_failed_generation_kept`, `Generation.C138_failing_run_goes_on`).
60. The documentation of `msgRatio` gives the example that against a score of 100 a score of 101.1 has the ratio 1; up to 102.04 it is 0, since the difference required is two percent (`Reporter.C47_documented_wrong`).
61. `History.kkr` is documented to do the same as the loop it replaced. That loop never picks a row in use; the optimized search does once records were purged in some arrangements, e.g. with the rows 0 and 2 in use (`History.C139_not_the_same`), and is independent of the order of the scores, on which the loop depends (`History.C139_order_ignored`).
62. The documentation of `ClosestPairFinder.__call__` says that with the default limit pairs are sampled for more than 142 rows; they are for 142, too (`PairSampling.C140_sampled_from_142`). It also gives 1000 as the default size of a history, which is 1500.
63. `SpecsLoader` is documented to ignore trailing parts of a line after a '#'. It does not if the '#' is right behind a value (`Specs.C141_glued`) or behind the name of a dict, which then cannot be defined (`Specs.C141_behind_name`). The documentation of `Specs` says that a dict without entries is not supported; it is (`Specs.C63_document` includes it).
64. `Population.load` with refined `bounds` limits the values of members but keeps their scores, without saying that they have to be evaluated again (it says so for a changed function only). A member outside the new bounds then has a score that is not the score of its values; if it is lower than any score within the bounds, no run ever replaces the member, and it stays the best one (`TrueScores.C142_never_corrected`, `TrueScores.C142_refined_bounds`).
65. An exception raised by a constraint function (or by `limit`) leaves `challenge` before `release(kt)`: there is no `try`/`finally`. The run ends, but the population's lock for that member stays acquired and another run on the same population waits for it forever (`RaisingConstraint.C143_next_run_blocked`).
66. `Population.load` does not register the loaded population with `callOnAbort`, and `DifferentialEvolution.shutdown` does not call `Population.abort` although documented to. So the Enter key never aborts a loaded population: its evaluation function is not told to shut down, later setups and runs are not refused (`EnterKey.C144_loaded_not_aborted`, `EnterKey.C144_loaded_goes_on`).
67. `Reporter.__call__` is documented to print # if the evaluation produced an error; a failed evaluation prints % instead, and # is printed for scores that are NaN or infinite (`Reporter.C145_failed`). With `force` it prints !, documented for a new best individual, also for one no better than the best, which stays the best (`Reporter.C145_forced`).
68. The battery example's `Reporter.__call__` looks for the greatest residual after the second one and does nothing with it; with fewer than three readings this raises an exception and there is no plot (`ExamplePlots.C146_voc_few`). The thermistor example extrapolates the curve to ten below the least resistance, also below zero, where there is no logarithm (`ExamplePlots.C146_thermistor_gap`).
69. `Messenger.__call__` counts `{{...}}` in a text as a field, so that a row of hyphens or blank line asked for after the text is lost (`MessageText.C148_row_lost`). A text without arguments is formatted after `-1` but not after `0`, which are documented to be the same, so that a text with a stray brace raises after `-1` (`MessageText.C148_stray`).
70. `Individual.update` makes an array of integers of a list of nothing but whole numbers. A float later assigned to an item is silently cut off (`Kinds.C149_cut_off`), also by the crossover if the mutation coefficient is a single whole number (`Kinds.C149_challenger_cut`), and an equal individual made of floats is hashed differently (`Kinds.C149_equal_other_key`).
71. The specifications of a file share the name space of the `Specs` object: names of its methods, and `ds`, cannot be used (`SpecNames.C150_add_taken`, `C150_dict_taken`, `C150_get_taken`, `C150_ds_dropped`, `C150_ds_dict_lost`), and `get` finds methods (`C150_method_found`).
72. Reading an item of an individual with an integer of numpy (`i[np.argmax(x)]`) raises a `ValueError`: it is not an `int`, so it is looked up among the names (`Items.C151_numpy_integer`).
73. In `doc/ade-thermistor-usage.py` a fan that is on is asked for below `INSIDE_MIN` ("Minimum inside temp to ever request fan") and when it is hotter outside than inside, within the hysteresis (`FanControl.C152_below_low`); at equal temperatures above `INSIDE_MAX` it is not asked for (`FanControl.C152_as_hot`).
74. The Goldstein-Price program computes in single precision. Next to the minimum the values are below 3, which is the minimum of the function (`GpSingle.C154_below_minimum`); goldstein-price.log ends with such an individual (SSE 2.99995).
75. The documentation of `ClosestPairFinder` says that its values are normalized such that the average of each column is 1.0. They are stored as given (`ClosestPair.C85_row_values`); it is the differences that are scaled, by the variance.
76. The documentation of `challenge` says that the donor's parameter is used if a random number is *less than* `CR` (`ade/de.py`, docstring of `challenge`); the code uses it also if they are equal (`crossover`). With the machine's random numbers a `CR` of 0 lets each parameter be the donor's with a chance of 2^-53 (an example beside `C161_crossover`).
77. Bounds are not checked for being finite. An infinite bound makes `scales` infinite and all starting values of the parameter infinite or NaN; differences of members are then NaN, and no value ever proposed is a number (`C163_infinite`). Finite bounds whose difference overflows give nothing but the lower bound and NaN (`C163_too_far_apart`).
78. `lineFit` doubles the lowest score in single precision, so that scores from 2^127 on make the weight of the best record NaN (`C164_too_large`).
79. `Kf12` computes boundaries in the precision of the scores. With scores that differ only in the last places, the boundaries fall together and the best record gets the smallest marker instead of the largest (`C166_close_scores`).
80. `Kp12` takes the floor of a rounded product. Of ten records the one at position 7 is drawn, of ninety the one at position 63 is not, though both are at exactly 70% (`C167_at_seventy_percent`).

Observed while reading, without a theorem:
`__getstate__` of the population lists an attribute `kr` that does not exist;
the keyword `sp` of `Analysis.plot` is never read (`kw.pop('kw')`). A setup never ends when every score is infinite
(`Setup.C74_waits_for_scores`). After a failing callback has aborted the population, the run itself goes on with
evaluations of `None` until one of them fails (`AbortRun.C76_failing_for_none_stops`) or it ends otherwise. An SSE below 0.00005 is printed as
`SSE=0.0000`; lgg then takes it for zero and shows only rows with such SSEs (C59 with a best score of zero). The check for
missing parameters in `RowManager.arrays` looks for `None` among the rows and never finds one. `msg("")` writes a newline as a character, so that a blank line
precedes the next line of text. An empty PID file is treated like a missing one only because of a caught `NameError`;
"No image viewer found" is also said when all viewers reported errors. examples/data.py needs Python 2
(`value_lists.sort(None, ...)`, csv over bytes), and so does examples/goldstein-price.py (text written to and replaced in
the bytes of a process). `oops` is documented to stop everything but only prints: the failure counts as
handled. `reParam` of the log grepper contains the escape `\E`, which Python takes for `E` up to version 3.5 and rejects from
3.6 on: there `import ade.scripts.lgg` raises `re.error`, and the command `lgg` does nothing else. The properties of the log
grepper (C59, C65, C80 to C83, C121, C129) are those of the program with an earlier Python. README.txt of the examples is not extracted (its name begins with a capital), and setup.py installs only the `.c`
and `.py` files. scripts/viewer.py is Python 2, unfinished and not installed as a command.

## Plan per property

(P = plan of model and proof; a line starting "code disagrees" records where the code does not have the property;
then the negation is proved on a witness and a `_partial` theorem states what does hold.)

| id | model | proof |
|----|-------|-------|
| C01 | `PyFloat` (nan, ±inf, rational), `Individual` with stored score | case analysis, stated outright |
| C02 | comparisons of `PyFloat` as in IEEE | order laws by cases; NaN exceptions explicit |
| C03 | identity key = (float32 score, raw bytes of values); bytes abstracted as an injective encoding of bit patterns | key equality ↔ specification; negation for -0.0 vs 0.0 |
| C04 | `limit` on lists of rationals, branch by branch | linear arithmetic, induction on the list |
| C05 | same | as C04 |
| C06 | `fromUnity`, `toUnity` | field arithmetic |
| C07 | constraints as arbitrary predicates on name→value dicts; installation with a callable check | induction over the list; permutation invariance |
| C08 | `RelationsChecker` loop | induction; iff specification |
| C09 | `Constraints.__iter__` with shared dict and late binding made explicit in the state | code disagrees: witnesses for both effects; partial for lazy use with non-clashing names |
| C10 | sort of indices by name | permutation and sortedness of merge sort |
| C11 | `sample` with random oracle (stream of draws) | induction over the draw loop |
| C12 | `ProbabilitySampler` over reals with two uniform draws | inequalities with sqrt |
| C13 | same loop | code disagrees: for small bias the support is smaller than N: no stream of draws terminates; partial: termination with probability one when the support is large enough, by a bound on the probability of waiting longer |
| C14 | arithmetic | omega |
| C15 | state machine of members and cached ranking | invariant by induction over operations; code disagrees for members changed in place |
| C16 | same | from C15 |
| C17 | transition system of setup: pending evaluations, completions in any order | invariant by induction over executions |
| C18 | same | invariant |
| C19 | row cursor of the design matrix | code disagrees: last row never used; partial: rows 0..n-2 used each once |
| C20 | replacement score automaton; probability by `Real.sin` | induction over event lists; monotonicity of sin on [-π/2, π/2] |
| C21 | FManager over a linear ordered field, scale factors as parameters, real powers for the concrete constants | invariant by induction |
| C22 | same | Archimedean argument |
| C23 | same | induction |
| C24 | `crossover` and mutation on rational vectors with random draws | pointwise, uses C04 |
| C25 | `sample` calls of `challenge` | from C11 |
| C26 | transition system: FIFO lock queues, challenge phases | invariant by induction over executions |
| C27 | same | lowest unfinished challenge is never blocked; decreasing measure |
| C28 | same, with population contents and deterministic evaluator per challenge | simulation invariant against the sequential fold |
| C29 | same | induction over executions |
| C30 | same | induction, uses C04, C24 |
| C31 | score comparison | code disagrees for NaN: witness; partial for infinite |
| C32 | generation loop with outcome oracles | induction on generation number |
| C33 | same with FManager outcome list | induction; exact characterisation |
| C34 | same | code disagrees: comparing a bound method to a float raises TypeError at the end of the first generation; partial: without a goal no failure |
| C35 | transition system with a shutdown step | induction |
| C36 | History: rows, order list, membership sets, counter | invariant by induction over operations (capacity ≥ 4; contiguous rows) |
| C37 | same, refinement to an abstract list of records | code disagrees after `purgePop` (row reuse): witness; partial without `purgePop` |
| C38 | same | invariant |
| C39 | same with exceptions and lock as values | code disagrees: full roster of members, tiny capacities; partial otherwise |
| C40 | same | induction |
| C41 | Population+History coupling with identity keys | code disagrees: duplicate members, changed keys; partial for distinct stable keys |
| C42 | same | invariant |
| C43 | ClosestPairFinder with an arbitrary difference function | argmin reasoning |
| C44 | save/restore functions with 16-bit index encoding | round trip; bound on rows < 65536; code disagrees across processes because keys are process-dependent |
| C45 | population save/restore | round trip |
| C46 | Reporter state machine | invariant |
| C47 | ratio decision logic | case analysis; monotonicity |
| C48 | callback runner automaton | invariant over interleavings |
| C49 | same | code disagrees: witness; partial |
| C50 | nested dictionaries | code disagrees: prefix hitting a plain value; partial |
| C51 | tokens as character lists, printer vs parser | round trip by induction on digits |
| C52 | line reader with exceptions as values | code disagrees: witnesses; partial |
| C53 | keyboard automaton | induction over events |
| C54 | Bag automaton | induction |
| C55 | timer | code disagrees: it averages completion timestamps; witness and partial |
| C56 | messenger automaton writing to a character list | induction |
| C57 | counter automaton and number printing | injectivity |
| C58 | name/column maps | lookup lemmas |
| C59 | trim | code disagrees: keeps the worst of the qualifying rows; witness and partial |
| C60 | penalty factor of the closest-pair finder | code disagrees: constant; partial |
| C61 | row selection by score ratio | code disagrees for a best score of zero; partial otherwise |
| C62 | callback runner automaton | invariant over interleavings, from C46 and C48 |
| C63 | grammar of well-formed specs documents | induction over the document |
| C64 | messenger automaton | code disagrees: always false; partial |
| C65 | starred entries of the log | code disagrees for equal scores; partial for distinct ones |
| C66 | FManager | induction on the number of scale-ups, Archimedean argument |
| C67 | one challenge | decision logic stated outright |
| C68 | one generation: reports, replacement score, FManager | code disagrees for large populations; partial |
| C69 | pages of subplots, columns of selected records | induction over the pages; permutation of the three series |
| C70 | pairs of columns with given coefficients, stable sort | permutation and sortedness |
| C71 | loop over the correlator's pairs | code disagrees for a name; partial |
| C72 | slices by rank and by score range | code disagrees at boundaries and for equal scores; partial |
| C73 | weight as a rational function | code disagrees for a best score of zero; partial |
| C74 | state machine of `setup` with numbered evaluations | counting invariants by induction over the events |
| C75 | queue of requests, one of them waiting for the closest-pair finder | the history equals that of the sequential run of a prefix of the requests |
| C76 | `DESystem` with `Population.abort` as a step and a second flag | invariant: evaluations begun before the abort have their targets to themselves |
| C77 | `Sampler`, the two draws as a point of the unit square | area of the draws below a bound; integral of the density |
| C78 | `DESystem` | invariant on the number of recordings, by induction over the acts |
| C79 | words, wrapping into lines | induction over the lines; permutation and order of the words |
| C80 | scanner for the two regular expressions, lines of a log | scanner matches exactly the pattern; induction over words, lines, entries |
| C81 | printer and parser of the table | round trip by induction over rows and columns |
| C82 | glob matcher, expansion of ranges | matcher equals an inductive relation; code disagrees on ranges; partial |
| C83 | rows and columns as texts | splitting and positions by induction |
| C84 | finder with numeric differences | the smallest difference is zero exactly for twins |
| C85 | cache automaton; variance | invariant of the cache; algebra of variances |
| C86 | crossover over uniform draws | measure of a box of draws; sum over the forced parameter |
| C87 | messenger and counter of characters on a line | induction over the operations |
| C88 | `DESystem` | monotonicity per index over interleavings |
| C89 | object as partial function from names to values | code disagrees for private names and overrides; partial |
| C90 | table of options, keyword lookup | case analysis |
| C91 | automaton of watcher and viewers | code disagrees after the first start; invariant over the events; partial |
| C92 | two systems `Challenge` | simulation of runs by a relation between individuals |
| C93 | two systems `Challenge` | the same, related by a scale of scores |
| C94 | two systems `DESystem`, with and without xSSE | simulation; losing outcomes may differ. Loops of the example by induction |
| C95 | names as character lists; real functions | monotonicity of a cubic in the logarithm; sum of logarithms |
| C96 | same | code disagrees: order of parameters; partial |
| C97 | polynomial, statement by statement | sum-of-squares factorization |
| C98 | lock with a queue of continuations, runner automaton, pool | code disagrees: induction over the answers gives the mixed-up results; invariant for careful use; partial |
| C99 | stable sort and selection of rows | permutation, sortedness, stability |
| C100 | `Challenge` | invariant of members over the acts; case analysis of the reflection |
| C101 | queues per lock, numbered requests, users | code disagrees for careless requests; invariant over interleavings; decreasing sum for deadlock freedom; partial |
| C102 | `Figures` composed | code disagrees for one parameter; partial |
| C103 | directory as a function from names to contents | pointwise characterisation of the loop |
| C104 | declarations and lookup; lines of the text | code disagrees: no positional arguments, late or malformed declarations; partial |
| C105 | floats with `p` bits, rounding as a relation | gap between neighbouring floats; `member_invariant` of C100 |
| C106 | `Setup` followed by `DESystem` with `Challenge` | code disagrees: surplus evaluations are lost; list of usable scores as invariant; evaluators that agree on legal values; partial |
| C107 | heap of arrays, individuals refer to arrays | simulation by individuals with values of their own; no two share an array as invariant; code disagrees for `update` with an array and for evaluators that write; partial |
| C108 | parsing of dimensions, choice of width and height | code disagrees: keywords ignored for files; partial |
| C109 | `Reporter` with a wait | batches of C48, forced report; values never change in a report |
| C110 | `RunSystem`: loop and concurrent challenges together; blocking run as specification | code disagrees; between generations equal to the blocking run if choices do not depend on the population, or if challenges are issued one at a time; partial |
| C111 | `RunSystem` | invariant by induction over the acts, decreasing measure; code disagrees: failed addition to the history; partial |
| C112 | `Options`, values consulted by a run | code disagrees for `uniform`; injectivity in the other options |
| C113 | `Container` over `PopHistory`, indices as integers | case analysis on the index; code disagrees for refused assignments and single indices; partial |
| C114 | `Session`: two objects with one set of locks | code disagrees; reduction to one object whose first challenges are idle; partial |
| C115 | `QueueRunner`: queue present or not, number of shutdowns waiting | code disagrees; induction over events; partial |
| C116 | `ExecText`: `ExecRunner` with texts | code disagrees; simulation with `ExecRunner`; partial |
| C117 | `ExecText`: pool with the requests waiting for a runner | code disagrees; induction over events; partial |
| C118 | `Resume`: `PopHistory` with saving and loading, hash function per process | code disagrees; invariant counting protected rows; partial |
| C119 | `ParamBounds`: `ParameterManager` over arrays of any lengths, with broadcasting | code disagrees; case analysis on lengths; partial |
| C120 | `Summary`: numbers of the first line of `Population.__repr__`, `evalTimes`, `dt` | code disagrees; folds for minimum and maximum, C15 for the members shown, C17 for the number; partial |
| C121 | `LggMain`: `main`, `Grepper.__call__` of lgg.py | composition of C79, C80, C82, C65, C59 and C83 |
| C122 | `Registering`: `addCallback` at any time around `Reporter` | invariant over executions, parametrised by two closed properties of the batches; proved |
| C123 | `ExampleRun`: `Runner.__call__` of the thermistor and battery programs, on top of `Options` | code disagrees; case analysis, C90 and C112 for the keywords, text of F read back; partial |
| C124 | `ConstraintSets`: lists, containers, generators and populations as objects with numbers, sequences of events | code disagrees; induction over the events, C09 for containers; partial |
| C125 | `LineFit`: weights of the selected records and normal equations | the deviation is a square form plus its least value, by induction over the records; partial |
| C126 | `Correlation`: coefficients as r·abs(r), CPython's sort written out | code disagrees; Cauchy-Schwarz from C125's determinant, correctness of the binary insertion; partial |
| C127 | loop of the C program over tokens with open and closed pipes; composed with the protocol's lock automaton | invariant: answered pairs and input left; code disagrees at the end of input, at texts, without the program; partial |
| C128 | `float.__format__` for `f` and `g` over rational numbers, with sign, digits, exponent; read by the model's reader of numbers | text is a numeral of the specs reader; value by digits; log bounds; code disagrees on small negative values and small scores; partial |
| C129 | individuals and populations printed with `{:.4f}`, `{:g}` and `{:.5g}`; the whole log grepper on that text | composition of C81, C121 and C128; error bounds; lines of an individual never look like the final table |
| C130 | the conversion to float32 of `self.X[kr,:] = SV`: 24-bit significand, gradual underflow, ties to even, overflow | nearest number of the format; monotone and idempotent; error bounds; composition with C36 and C37 |
| C131 | `History.add` with the finder's choices, actual differences included | negation by a run; invariant: the last row is never chosen |
| C132 | `FRounded`: requests with rounded products | relative error of rounding to nearest; invariant; growth and decay of the product of the limits |
| C133 | `Sampler.call` with Python's truncation and negative positions | rejection above one; form of the position for negative settings; draws by surjectivity of the variate |
| C134 | `SamplerRounded`: the sampler with every operation rounded | bounds of rounded sums and products; a float below one times n stays below n; a draw that is rounded to one |
| C135 | `StatusQuo`: target of a new population, generations of `replacement` calls | the record depends on the last generation only; area of the draws that keep the status quo; monotony of the cosine |
| C136 | `RunLoop`: the generation loop with the mutation range | a measure of the range that every unsuccessful generation lowers, or the dwell count rises; invariants of reached ranges; numeric bounds for the default settings |
| C137 | `FManager`: requests to scale down | a reported limit persists until the next scale-up; comparison of the two kinds of setting by induction on the requests |
| C138 | `Generation` and `RunLoop`: reports, score, inquiry, loop | what a report without score adds, summed over a generation; invariants through all generations |
| C139 | `pickRow` against the loop of the documentation | rows in use each with the one before it in use are the first ones; counting |
| C140 | `PairSampling.sampled`: rounds from a sequence of random pairs | counting of sequences by recursion on their length, positions of suitable pairs fixed; Bernoulli's inequality; exponential weights for the end |
| C141 | `Specs.readLine`, `Specs.read` | decomposition of any text into words; the words of a line with a comment; induction over the lines |
| C142 | `Setup.step`, `DESystem.step`, `Challenge.trial`, `SaveLoad.load` | invariant over events and over acts; a member that no challenger can be better than stays |
| C143 | `RaisingConstraint.raised`, `RunSystem.step`, `Session.step` | invariant over acts: the head of the lock's queue is a challenge that has failed |
| C144 | `EnterKey.World` over `Abort.St`: flags of numbered objects, registered functions as numbers | invariant: each function of an object made has had its effect or waits; functions called are a prefix of those registered; a function that waits nowhere is never called |
| C145 | `Reporter.St.chars`, `Reporter.report` | case analysis; callbacks commute with the characters printed |
| C146 | `ExamplePlots.vocPlot`, `thermistorPlot` over the curves of C95 and C96 | least and greatest of lists, evenly spaced places; the function drawn is the one in the score |
| C147 | `RatioRounded.equivFl`, `ratioFl` over any rounding to nearest; `round53` is one | relative error of a rounding, monotonicity of rounding, exact subtraction from one half to one |
| C148 | `MessageText.braceCount`, `sub`, `msg`, instances of the parameters of `Messenger.call` | prototypes as lists of parts, induction on them |
| C149 | `Kinds.Num`, `Arr`, `ofList`, `setItem`, `ap`, `crossover`, `limit`, `challenger`, `Stored`, `key` | simulation of the arrays of either kind by lists of rationals; bytes of integers taken as doubles |
| C150 | `SpecNames.hidden`, `erase`, `addAttr`, `dictStart`, `dictDone`, `act`, `read`, `get`, `load` | simulation of the reader of C63 as long as no taken name is set |
| C151 | `Items.Index`, `getItem`, `setItem`, `iter` | independent predicate for the parameter an index stands for; case analysis on the index |
| C152 | `FanControl.tempDiff`, `decideFan`, `setFan`, `step`, `run` | trace of writings and log lines; induction on the events with the last transition as state |
| C153 | `Thermometer.update`, `filter`, `curve`, `getTemps`, `temps` | filter against an independent moving average, geometric series; groups of readings as a separate function; strict monotonicity of the logarithm |
| C154 | `GpSingle.gp`, every operation rounded to float32 (`Single.mag`) | error bounds for sums and products, propagated through both polynomials; case distinction on the basis of the second factor; code disagrees: witness with a value below 3 |
| C155 | `RelationsRounded.check`, product, sum and difference rounded | error bounds of the three operations added up; induction over the relations |
| C156 | `QueryRounded.queryRows`: quotient and ratio converted to float32 | monotonicity and relative error of the conversion; different float32 numbers have a quotient that is more than half a unit from one |
| C157 | `UnityRounded.toUnity`, `fromUnity`, `stars` over any rounding to nearest | relative errors of the operations added up; monotonicity of rounding for the order and the bounds |
| C158 | `ChallengeRounded.challenger` over any rounding to nearest | errors of mutation and limiting added up; limiting does not increase distances |
| C159 | `DifferenceRounded.difference` over any rounding to nearest and any order of the sum | `Close k`, equality to within `k` roundings, which products, quotients and sums respect; C43 for the choice |
| C160 | `ReplacementRounded.score`, `keepStatusQuo` over any rounding to nearest | `Close` of C159; the chance as a squared sine, which is Lipschitz; errors of the operations added up |
| C161 | `MachineRandom.crossover`, `getF`, `inquiry` over any rounding to nearest | the cases form a product set, counted factor by factor; floor and ceiling counts for thresholds; error bounds of C160 and of `random.uniform` |
| C162 | `SamplerRounded.call`, `sampleOne` over any rounding to nearest and correctly rounded square root | the condition on the two draws is monotone in each; thresholds bracketed with the relative error of each operation; counting of draws below a threshold; closed form of the area (C77) |
| C163 | `WideBounds`: floats with infinities, NaN, rounding and overflow; the values of one parameter from setup through any challenges | closed sets of values; error bound of rounding to exclude overflow; simulation of the model without overflow |
| C164 | `LineFitRounded.weight`, `weights` over `Single.toSingle` | monotone rounding; relative error of each of the three operations |
| C165 | `HelpText.addDefault` with `str.format` for `{}` and doubled brackets | induction over the text before a bracket; substring search equals existence of a split |
| C166 | `FigureRounded.fraction`, `drawn` with one rounding for each operation; loop and sizes of `Figures` | monotone boundaries; relative errors |
| C167 | `RankRounded.place`, `portion`, `drawn`; loop and sizes of `Figures` | error of a rounded product; floor is monotone |
| C168 | `PairRounded.mult`, `size` with rounding; rounds and sequences of `PairSampling` | relative errors of four operations; `C140_ends` |

## Axioms of each theorem

From `#print axioms` on every theorem named in `MANIFEST.json`. Names are without the leading `Ade.`.

* no axioms (3): C03_same_bits_same_hash, Analysis.C57_first_name, EnterKey.C144_loaded_goes_on

* `propext` (47): Population.C14_size_default, Setup.C17_never_stuck, DESystem.C35_shutdown_idempotent, DESystem.C35_fatal_stops, ClosestPair.C43_single, Abort.C53_second_press_nothing, Abort.C53_failure_continues, Abort.C53_late_registration, Abort.C53_abort_now, Abort.C53_ignored, Abort.C53_registered_after_shutdown_runs, Abort.C53_registered_meanwhile, Bag.C54_latest, Bag.C54_latest_exists, Bag.C54_at_most_once, Messenger.C56_no_file, Messenger.C56_single_text, Messenger.C56_select_file, Analysis.C61_mode_precedence, Messenger.C64_no_line_no_partial, AbortRun.C76_usable_for_none, LggNames.C82_open_range, Image.C91_no_second_viewer, Image.C91_options, Locks.C101_not_running, Extract.C103_not_overwritten, Rounding.C105_limit_within, Rounding.C105_limit_keeps, Rounding.C105_limit_reflects, Arrays.C107_wrong_length, Waiting.C109_waits, Waiting.C109_not_waited, RunSystem.C111_blocked_never_ends, RunSystem.C111_shutdown_ends, RunSystem.C111_failure_ends, Session.C114_disturbed, Registering.C122_adding, ConstraintSets.C124_shared_default, ConstraintSets.C124_generator, ConstraintSets.C124_isolated, ConstraintSets.C124_length, ConstraintSets.C124_no_container, ConstraintSets.C124_names, ConstraintSets.C124_names_list, ConstraintSets.C124_names_left_out, GpMain.C127_junk, RaisingConstraint.C143_ends

* `Quot.sound`, `propext` (123): C01_score_reads, C01_bool_special, C02_blacklisted_never_better, C03_rawEq_iff, C03_eq_iff, C07_params_dict, C07_passes_iff, C07_order_irrelevant, Population.C14_size, Population.C14_one_lock_per_member, Population.C15_ranking_current, Population.C15_reads_keep_members, Population.C15_sorted_current, Population.C15_rescored_in_place_stale, Population.C15_query_during_setup_stale, Population.C16_single_member_exception, FManager.C21_zero_lower_limit, FManager.C21_setters, FManager.C22_up_clears, FManager.C23_not_adaptive_fixed, DESystem.C26_nothing_read_after_end, DESystem.C26_shared_after_end, Challenge.C31_nan_never_beaten, RunLoop.C32_call, RunLoop.C33_gives_up_iff, RunLoop.C33_bitter_end, RunLoop.C34_no_goal_partial, RunLoop.C34_goal_fails, DESystem.C35_frozen, DESystem.C35_frozen_run, ClosestPair.C43_none_eligible_raises, Specs.C50_found, Specs.C50_stops_at_value, Abort.C53_in_order_once, Abort.C53_press_calls_all, Abort.C53_first_press, Abort.C53_never_ends, Messenger.C56_in_order, Messenger.C56_own_line, Messenger.C56_chars, Messenger.C56_broken_file, Messenger.C56_no_suffix, Messenger.C56_only_newline, Analysis.C58_column_round_trip, Analysis.C58_unknown, ClosestPair.C60_penalty_never_grows, ClosestPair.C60_penalty_never_grows_sampled, Messenger.C64_never_true, Lgg.C65_tie_forgets, Lgg.C65_repeat_admits_worst, AbortRun.C76_frozen, AbortRun.C76_begun_after_shutdown, LogText.C79_breaks, LogText.C80_printed_numbers, LggNames.C82_plain, LggNames.C82_prefix, LggNames.C82_question, LggNames.C82_letter_range, LggNames.C82_setup_plain, LggNames.C82_set, LggNames.C83_load, LggNames.C83_missing, LggNames.C83_row_words, LggNames.C83_table, LggNames.C83_aligned, ClosestPair.C85_refused, Progress.C87_full_lines, Progress.C87_only_messages, DESystem.C88_members_evaluated, Image.C91_no_complaints, Thermistor.C94_thermistor_zero, GoldsteinPrice.C97_within_bounds, ExecRunner.C98_two_in_flight_partial, ExecRunner.C98_pool_partial, ExecRunner.C98_in_turn, ExecRunner.C98_mixed_up, ExecRunner.C98_before_connection, ExecRunner.C98_shutdown_without_effect, ExecRunner.C98_not_next_free, TimeData.C99_load, TimeData.C99_row, Locks.C101_refused, Locks.C101_too_large_index, Locks.C101_too_large, Locks.C101_release, Locks.C101_release_missing, Extract.C103_created, Extract.C103_idempotent, Extract.C103_restored, Args.C104_paragraphs, Arrays.C107_start_separate, RunSystem.C111_nothing_reported, Container.C113_contains, Container.C113_members_contained, Session.C114_settled_returned, QueueRunner.C115_afterwards, QueueRunner.C115_tasks, QueueRunner.C115_repeated, QueueRunner.C115_aborted, ExecText.C116_written, ConstraintSets.C124_installed, ConstraintSets.C124_single, ConstraintSets.C124_refused, ConstraintSets.C124_list, ConstraintSets.C124_none, GpMain.C127_parent_gone, GpMain.C127_ends_iff, RunLoop.C136_hangs_around, RunLoop.C136_fixed_never_stops, FManager.C137_fixed_no_limit, History.C139_not_the_same, History.C139_order_ignored, PairSampling.C140_all_partial, PairSampling.C140_sampled_from_142, PairSampling.C140_limit_1000, RaisingConstraint.C143_last_generation, RaisingConstraint.C143_nothing_after_end, EnterKey.C144_enter_stops_partial, EnterKey.C144_order, EnterKey.C144_loaded_not_aborted, EnterKey.C144_restart_forgets, MessageText.C148_sub, MessageText.C148_counted

* `Classical.choice`, `Quot.sound`, `propext` (755): C01_score_nonneg, C01_bool_iff, C01_evaluate, C01_copy_forgets_failure, C01_copy_same_score, C02_lt_is_score_order, C02_ltNum, C02_strict_order, C02_total, C02_failed_never_better, C03_key_iff, C03_eq_ranks_same, C03_equal_but_different_key, Ieee754.C03_key_numbers, Ieee754.C03_overflow, Ieee754.C03_equal_same_hash, Ieee754.C03_signed_zeros, C04_limit_within, C05_limit_legal, C05_limit_idempotent, C05_limit_reflects, C05_limit_spec, C06_fromUnity_within, C06_round_trip, C06_round_trip_back, C07_setConstraints, C08_accepts_iff, C08_rejects_iff, C08_order_irrelevant, C09_lazy_partial, C09_clash_breaks, C09_collected_breaks, C09_collected_iff, C09_collected_stale, C10_sorted_enumeration, C10_sorted_with_values, C10_sorted_with_values_order, C10_duplicates_break, Sampler.C11_distinct_allowed, Sampler.C11_uniform_succeeds, Sampler.C11_bias_zero_best, Sampler.C12_returns_candidate, Sampler.C12_rank_bound, Sampler.C12_rank_bound_sharp, Sampler.C12_bias_zero, Sampler.C12_lower_bias_earlier, Sampler.C13_can_finish_partial, Sampler.C13_small_bias_never_returns, Sampler.C13_witness, Sampler.C13_single_returns, Sampler.C13_tail_partial, Sampler.C13_almost_surely_partial, Population.C14_size_bounds, Population.C15_best_current, Population.C15_members, Population.C16_push_replaces_worst, Population.C16_push_keeps_best, Setup.C17_setup_complete, Setup.C17_never_too_many, Setup.C17_blank_setup, Setup.C17_again, Setup.C18_fatal_aborts, Setup.C18_failed_never_member, Setup.C18_no_new_evaluation, Setup.C18_abort_finishes, Setup.C18_shut_down, Setup.C19_rows_in_order_partial, Setup.C19_last_row_never_used, Setup.C19_witness, Replacement.C20_decided_on_sum, Replacement.C20_inquiry_resets, Replacement.C20_first_keeps, Replacement.C20_set_target, Replacement.C20_target_reached, Replacement.C20_zero_never, Replacement.C20_monotone, Replacement.C20_threshold, FManager.C21_range_within_limits, FManager.C21_draws_in_range, FManager.actual_good, FManager.C22_reaches_limit, FManager.C22_not_below_critical, FManager.C22_stays_above_critical, FManager.C22_reported_only_at_limit, FManager.C23_single_adapts, Challenge.C24_parameter_form, Challenge.C24_from_donor, Challenge.C24_from_target, Challenge.C24_donor_share, Challenge.C24_within, Sampler.C25_lock_accepts_iff, Sampler.C25_four_distinct, Sampler.C25_choices_made, RunLoop.C25_base_rule, RunLoop.C25_base_not_target, DESystem.C26_mutual_exclusion, DESystem.C26_reads_no_target_in_progress, DESystem.C26_evaluated_reads_no_target, DESystem.C27_no_deadlock, DESystem.C27_bounded, DESystem.C28_async_eq_sequential, DESystem.C28_reads_sequential, DESystem.C28_always_sequential_member, DESystem.C28_completes, DESystem.C28_any_number, DESystem.C29_step_improves, DESystem.C29_run_improves, DESystem.C29_best_never_worse, Challenge.C30_members_stay_legal, Challenge.C31_finite_beats_infinite_partial, Challenge.C31_nan_member_stays, RunLoop.C32_run_shape, RunLoop.C32_generations, RunLoop.C33_not_adaptive_never, DESystem.C35_outstanding_finish, History.C36_bounded_sorted_partial, History.C36_bounded_sorted_nopurge, History.C36_purge_then_add_shares_row, History.C36_row_in_use_iff, History.C37_add_not_full, History.C37_add_full, History.C37_exactly_the_added, History.C37_add_nopurge, History.C37_lost_after_purge, History.C38_members_kept_nopurge, History.C38_members_kept_by_add, History.C38_members_removed_only_by_purge_or_clear, History.C38_purge_removes_members, History.C38_member_overwritten_after_purge, History.C39_add_completes_partial, History.C39_full_of_members_fails, History.C39_after_failure_all_blocked, History.C39_capacity_three_and_one_fail, History.C39_overflow_fails, History.C40_total_counts_unless_failed, History.C40_total_counts, History.C40_total_monotone, PopHistory.C41_marks_are_members_partial, PopHistory.C41_replaced_is_former, PopHistory.C41_duplicates_break, PopHistory.C41_changed_score_breaks, History.C41_purge_forgets, History.C42_views_partition_nopurge, History.C42_views_partition, History.C42_views_cover, History.C42_views_cover_any, History.C42_views_overlap_after_purge, ClosestPair.C43_chooses_from_closest_pair, ClosestPair.C43_is_chooser, ClosestPair.C43_rejects_nonfinite, History.C43_eligible_iff, History.C37_add_full, History.C44_round_trip_partial, History.C44_wide_rows_break, History.C44_other_process_breaks, SaveLoad.C45_same_contents, SaveLoad.C45_runnable, SaveLoad.C45_never_set_up, SaveLoad.C45_new_bounds, SaveLoad.C45_bounds_ignore_constraints, SaveLoad.C45_not_kept, Reporter.C46_no_better_no_change, Reporter.C46_best_seen_partial, Reporter.C46_complaint_forgets, Reporter.C46_nan_best_stays, Reporter.C47_none_iff, Reporter.C47_zero_iff_partial, Reporter.C47_nearest, Reporter.C47_halfway, Reporter.C47_monotone_partial, Reporter.C47_character, Reporter.C47_zero_tie, Reporter.C47_perfect_score_smaller_ratio, Reporter.C47_bogus_challenger, Reporter.C47_bogus_old, Reporter.C47_documented_partial, Reporter.C47_documented_wrong, Reporter.C48_batches, Reporter.C48_last_delivered, Reporter.C48_call_content, Reporter.C48_new_best_reported, Reporter.C48_forced_reported, Reporter.C48_settles, Reporter.C48_failed_handler_blocks, Reporter.C49_blacklisted, Reporter.C49_complaint_ignored, Reporter.C49_restored_partial, Reporter.C49_first_of_run_not_restored, Reporter.C49_next_takes_over, Specs.C50_missing_partial, Specs.C50_loaded_wf, Specs.C50_found_loaded, Specs.C50_witness, Specs.C51_value_round_trip, Specs.C51_integer_round_trip, Specs.C51_nat_digits_round_trip, Specs.C51_number_iff, Specs.C51_list_round_trip, Specs.C51_comma_without_space, Specs.C51_text_lowercased, Specs.C51_bare_point, Specs.C52_flat_total_partial, Specs.C52_crashes, Specs.C52_vanishes, Specs.C52_unset_iff, Specs.C52_entry, Specs.C52_list_item, Specs.C52_below_value, Specs.C52_no_name, Specs.C52_integer_name, Abort.C53_ends, Abort.C53_none_registered, EvalTimer.C55_order_by_end_partial, EvalTimer.C55_fails, EvalTimer.C55_duration_irrelevant, Messenger.C56_blank_line_before, Messenger.C56_layout, Messenger.C56_one_not_indented, Analysis.C57_names_distinct, Analysis.C58_name_round_trip, Lgg.C59_in_score_order, Lgg.C59_row_limit, Lgg.C59_within_ratio, Lgg.C59_best_last_partial, Lgg.C59_limit_drops_best, Lgg.C59_neighbours_differ, Lgg.C59_dropped_are_close, Lgg.C59_negative_never_differs, Lgg.C59_negative_witness, ClosestPair.C60_never_members_favoured_partial, ClosestPair.C60_penalty_constant, Analysis.C61_selects_by_ratio_partial, Analysis.C61_best_included, Analysis.C61_perfect_score_selects_nothing, Reporter.C62_delivered_close, Specs.C63_document, Lgg.C65_starred_partial, Lgg.C65_any_log_partial, FManager.C66_up_raises_range, FManager.C66_up_raises_single, FManager.C66_ups_restore, FManager.C66_one_up_not_enough, Challenge.C67_evaluated_iff, Challenge.C67_fatal_iff, Challenge.C67_rejected_iff, Generation.C68_report_adds, Generation.C68_new_best_kept_partial, Generation.C68_new_best_scaled_down, Figures.C69_all_parameters, Figures.C69_named_parameters, Figures.C69_range, Figures.C69_stretch, Figures.C69_figure_sizes, Figures.C69_no_single_subplot, Figures.C69_series, Figures.C69_each_record_once, Figures.C69_works, Figures.C70_each_pair_once, Figures.C70_descending, Figures.C71_most_correlated, Figures.C71_with_name_partial, Figures.C71_last_name_shows_nothing, Figures.C72_fraction_iff, Figures.C72_fraction_groups_partial, Figures.C72_equal_scores_draw_nothing, Figures.C72_portion_positions, Figures.C72_portion_groups_cover_partial, Figures.C72_portions_overlap, Figures.C72_larger_is_better, Figures.C72_larger_is_earlier, Figures.C73_weights_partial, Figures.C73_weight_of_worst_partial, Figures.C73_perfect_score, Setup.C74_parallel_limit, Setup.C74_work_bound, Setup.C74_members_count, Setup.C74_completes, Setup.C74_waits_for_scores, HistoryLock.C75_request_order, HistoryLock.C75_always_a_prefix, HistoryLock.C75_fired, HistoryLock.C75_never_stuck, HistoryLock.C75_progress, HistoryLock.C75_none_lost, AbortRun.C76_step_improves, AbortRun.C76_run_improves, AbortRun.C76_no_deadlock, AbortRun.C76_bounded, AbortRun.C76_no_values, AbortRun.C76_lock_at_once, AbortRun.C76_failing_for_none_stops, Sampler.C77_probability, Sampler.C77_total, Sampler.C77_better_more_likely, Sampler.C77_flat_part, Sampler.C77_one_uniform, Sampler.C77_drops_at_once, Sampler.C77_more_uniform, Sampler.C77_near_zero, Sampler.C77_near_one, Sampler.C77_sample, DESystem.C78_recorded_iff_lost, DESystem.C78_only_losers, DESystem.C78_winner_not_recorded, LogText.C79_words, LogText.C79_line_length, LogText.C79_stars, LogText.C80_reads_back, LogText.C80_last_entry, LogText.C80_individual, LogText.C80_names, LogText.C80_infinite_lost, LogText.C80_unreadable, LogText.C80_repeated_name, LogText.C81_final_population, LogText.C81_aligned, LogText.C81_bad_row, LggNames.C82_selected_partial, LggNames.C82_class, LggNames.C82_default, LggNames.C82_no_entry, LggNames.C82_shown, LggNames.C82_names_read, LggNames.C82_number_range, LggNames.C82_range_selects_nothing, LggNames.C82_leading_zeros_lost, LggNames.C83_long_values_misalign, ClosestPair.C84_duplicate_first, ClosestPair.C84_duplicate_sampled, ClosestPair.C84_better_pairs_kept, ClosestPair.C84_never_members_go_first, ClosestPair.C85_present_rows, ClosestPair.C85_row_values, ClosestPair.C85_scaling_never_stale, ClosestPair.C85_shift, ClosestPair.C85_units, Challenge.C86_independent, Challenge.C86_probability, Challenge.C86_expected, Progress.C87_lines, Progress.C87_line_length, DESystem.C88_not_beaten_by_challengers, BestKept.C88_best_never_lost, BestKept.C88_nan_loses_best, Picklable.C89_public_kept_partial, Picklable.C89_overrides_lost, Picklable.C89_slots, Picklable.C89_idempotent, Options.C90_given, Options.C90_default, Options.C90_crossover_rate, Options.C90_unknown_ignored, Options.C90_crossover_rate_kinds, Image.C91_one_at_a_time, Image.C91_starts_viewer, Image.C91_messages, Image.C91_never_terminated, Image.C91_not_restarted, Image.C91_arguments, Image.C91_option, Challenge.C92_units, Challenge.C92_initial, Challenge.C92_order, Challenge.C92_constraints, Challenge.C93_ranking, Challenge.C94_early_abort, Challenge.C94_early_abort_converse, Thermistor.C94_thermistor_stop, Thermistor.C94_thermistor, Thermistor.C94_residuals_nonneg, Thermistor.C94_thermistor_saves, Thermistor.C95_arguments, Thermistor.C95_curve_decreasing, Thermistor.C95_penalty, Thermistor.C95_weights, Thermistor.C95_rate_weight, Thermistor.C95_steinhart_hart, Thermistor.C95_perfect, Thermistor.C95_bounds, Thermistor.C95_search_space, Voc.C96_curve_partial, Voc.C96_score_partial, Voc.C96_mixed_parameters, Voc.C96_not_documented, Voc.C96_score_adds, GoldsteinPrice.C97_minimum, ExecRunner.C98_busy_though_free, TimeData.C99_readings, TimeData.C99_times, Challenge.C100_settled, Challenge.C100_all_alike, Challenge.C100_reach, Locks.C101_request, Locks.C101_exclusive_partial, Locks.C101_in_order_partial, Locks.C101_no_deadlock_partial, Locks.C101_refused_keeps_locks, Locks.C101_waits_for_itself, Pv.C102_shown_partial, Pv.C102_no_file, Pv.C102_one_parameter, Extract.C103_kinds, Args.C104_values_partial, Args.C104_positional_partial, Args.C104_no_positional, Args.C104_declared_late, Args.C104_ignored, Args.C104_callable, Rounding.C105_members_within, Rounding.C105_fromUnity_within, Rounding.C105_initial_unchanged, Rounding.C105_at_one, Whole.C106_first_usable, Whole.C106_members_legal, Whole.C106_only_legal_evaluated, Whole.C106_best_partial, Whole.C106_surplus_lost, Arrays.C107_own_values, Arrays.C107_write_local, Arrays.C107_challenge_changes_none, Arrays.C107_record_kept, Arrays.C107_copy_independent, Arrays.C107_evaluator_can_alter, Arrays.C107_update_array_shares, Dims.C108_read, Dims.C108_pv, Dims.C108_file_height, Dims.C108_window_partial, Dims.C108_keywords_ignored, Dims.C108_constructor_default, Dims.C108_window_keywords, Waiting.C109_final_report, Waiting.C109_wait_ends, RunSystem.C110_same_choices_partial, RunSystem.C110_one_at_a_time_partial, RunSystem.C110_best_differs, RunSystem.C110_uniform, RunSystem.C111_no_overlap, RunSystem.C111_targets, RunSystem.C111_between_generations, RunSystem.C111_goes_on_partial, RunSystem.C111_bounded, RunSystem.C111_ends_partial, RunSystem.C111_nothing_after_end, Options.C112_consulted_partial, Options.C112_uniform_ignored, Container.C113_get, Container.C113_set, Container.C113_set_is_assign, Container.C113_refused_partial, Container.C113_ghost, Container.C113_ghost_marked, Container.C113_individuals_partial, Container.C113_individuals_other, Session.C114_called_again, Session.C114_undisturbed_partial, Session.C114_settled_shutdown, Session.C114_improves_partial, QueueRunner.C115_one_by_one_partial, ExecText.C116_whole_lines_partial, ExecText.C116_blank, ExecText.C116_cut, ExecText.C116_two_lines, ExecText.C117_each_once_partial, ExecText.C117_waits_for_ever, ExecText.C117_in_turn, Resume.C118_bounded_partial, Resume.C118_same_hash, Resume.C118_blocks, Resume.C118_new_bounds, ParamBounds.C119_constructor, ParamBounds.C119_load_partial, ParamBounds.C119_one_pair, ParamBounds.C119_no_members, ParamBounds.C119_exchanged, Summary.C120_empty, Summary.C120_range_partial, Summary.C120_nan_first, Summary.C120_times, Summary.C120_average, Summary.C120_number_partial, Summary.C120_number_aborted, Summary.C120_shown, Summary.C120_scores, LggMain.C121_arguments, LggMain.C121_table, LggMain.C121_starred, LggMain.C121_no_table, LggMain.C121_empty_log, LggMain.C121_individuals, LggMain.C121_unreadable, Registering.C122_registered, Registering.C122_batches, Registering.C122_last_delivered, Registering.C122_joins, Registering.C122_later_batches, ExampleRun.C123_conduct, ExampleRun.C123_size, ExampleRun.C123_stops_iff, ExampleRun.C123_stops_partial, ExampleRun.C123_hangs, ExampleRun.C123_uniform_ignored, ExampleRun.C123_saved, ExampleRun.C123_short_name, ExampleRun.C123_defaults, ConstraintSets.C124_container, LineFit.C125_best, LineFit.C125_defined, LineFit.C125_exact, LineFit.C125_order, LineFit.C125_units, LineFit.C125_perfect, LineFit.C125_half, LineFit.C125_text, Correlation.C126_coefficient, Correlation.C126_range, Correlation.C126_line, Correlation.C126_symmetric, Correlation.C126_units, Correlation.C126_defined, Correlation.C126_each_pair, Correlation.C126_order_partial, Correlation.C126_constant, Correlation.C126_strongest_partial, GpMain.C127_answers, GpMain.C127_settles, GpMain.C127_served, GpMain.C127_end_of_input, GpMain.C127_not_compiled, Format.C128_general, Format.C128_zero, Format.C128_relative, Format.C128_exact, Format.C128_order, Format.C128_stable, Format.C128_fixed, Format.C128_fixed_order, Format.C128_fixed_zero, Format.C128_readable, Format.C128_width, Format.C128_aligned, Format.C128_best_shown_once, Format.C128_too_wide, Format.C128_small_scores, LogNumbers.C129_table, LogNumbers.C129_final, LogNumbers.C129_head, Single.C130_is_single, Single.C130_nearest, Single.C130_exact, Single.C130_infinite, Single.C130_accuracy, Single.C130_records, Single.C130_order, Single.C130_order_not_exact, Single.C130_tie, Eviction.C131_lower_row_goes_partial, Eviction.C131_filling_record_stays, Eviction.C131_best_goes_worst_stays, FRounded.C132_range_within_limits, FRounded.C132_draws_in_range, FRounded.C132_stays_above_critical, FRounded.C132_reaches_limit, FRounded.C132_ups_restore, FRounded.C132_actual_factors, Sampler.C133_above_one_rejected_partial, Sampler.C133_negative_accepted, Sampler.C133_negative_worst, Sampler.C133_negative_index_error, SamplerRounded.C134_returns_allowed_partial, SamplerRounded.C134_rank_bound, SamplerRounded.C134_index_error, SamplerRounded.C134_error_rare, StatusQuo.C135_chance_partial, StatusQuo.C135_larger_population, StatusQuo.C135_more_improvements, StatusQuo.C135_documented, StatusQuo.C135_no_improvement_never, RunLoop.C136_range_bound_partial, RunLoop.C136_single_bound_partial, RunLoop.C136_default_bound, FManager.C137_limit_means_no_reduction, FManager.C137_same_speed, Generation.C138_lost_partial, Generation.C138_counts_as_equivalent, Generation.C138_failed_generation_kept, Generation.C138_failing_run_goes_on, History.C139_documented_fresh, History.C139_documented_exists, History.C139_same_appending_partial, History.C139_same_evicted_partial, History.C139_differs_on_collision, History.C139_optimized, PairSampling.C140_uniform, PairSampling.C140_missed, PairSampling.C140_examined_at_most, PairSampling.C140_full_history, PairSampling.C140_round_mean, PairSampling.C140_ends, Specs.C141_line_partial, Specs.C141_document_partial, Specs.C141_glued, Specs.C141_behind_name, Specs.C141_behind_any_name, TrueScores.C142_setup, TrueScores.C142_run, TrueScores.C142_setup_and_run, TrueScores.C142_load_partial, TrueScores.C142_never_corrected, TrueScores.C142_refined_bounds, RaisingConstraint.C143_next_run_blocked, Reporter.C145_one_partial, Reporter.C145_failed, Reporter.C145_forced, Reporter.C145_two, Reporter.C145_silent, ExamplePlots.C146_voc_partial, ExamplePlots.C146_voc_few, ExamplePlots.C146_voc_line, ExamplePlots.C146_thermistor_partial, ExamplePlots.C146_thermistor_falls, ExamplePlots.C146_thermistor_gap, RatioRounded.C147_none_iff, RatioRounded.C147_zero_margin, RatioRounded.C147_nearest, RatioRounded.C147_monotone, RatioRounded.C147_two_percent, RatioRounded.C147_edge, RatioRounded.C147_exact, MessageText.C148_too_few, MessageText.C148_message_partial, MessageText.C148_row_lost, MessageText.C148_stray, Kinds.C149_given, Kinds.C149_assigned_partial, Kinds.C149_cut_off, Kinds.C149_arithmetic, Kinds.C149_limit, Kinds.C149_challenger_partial, Kinds.C149_challenger_cut, Kinds.C149_equal_other_key, SpecNames.C150_document_partial, SpecNames.C150_no_file, SpecNames.C150_method_found, SpecNames.C150_add_taken, SpecNames.C150_dict_taken, SpecNames.C150_get_taken, SpecNames.C150_ds_dropped, SpecNames.C150_ds_dict_lost, Items.C151_read_partial, Items.C151_written, Items.C151_not_written, Items.C151_iterated, Items.C151_numpy_integer, FanControl.C152_transitions, FanControl.C152_logged, FanControl.C152_required, FanControl.C152_switched_on, FanControl.C152_hysteresis, FanControl.C152_steady, FanControl.C152_hot_partial, FanControl.C152_as_hot, FanControl.C152_kept_on, FanControl.C152_below_low, FanControl.C152_offline, Thermometer.C153_filter, Thermometer.C153_first, Thermometer.C153_step_response, Thermometer.C153_between, Thermometer.C153_time_constant, Thermometer.C153_increasing, Thermometer.C153_thermistor, Thermometer.C153_left_out, Thermometer.C153_averages, Thermometer.C153_count, Thermometer.C153_channels, GpSingle.C154_accurate, GpSingle.C154_order_partial, GpSingle.C154_at_minimum, GpSingle.C154_below_minimum, GpSingle.C154_lowest_partial, RelationsRounded.C155_accepted, RelationsRounded.C155_satisfied, RelationsRounded.C155_answered, RelationsRounded.C155_no_tolerance, RelationsRounded.C155_wider, RelationsRounded.C155_edge, QueryRounded.C156_none_left_out, QueryRounded.C156_returned, QueryRounded.C156_ratio_one, UnityRounded.C157_within, UnityRounded.C157_order, UnityRounded.C157_accurate, UnityRounded.C157_round_trip, UnityRounded.C157_bounds_starred, UnityRounded.C157_stars, ChallengeRounded.C158_parameter_form, ChallengeRounded.C158_agreement, ChallengeRounded.C158_units, ChallengeRounded.round53_units, DifferenceRounded.C159_difference, DifferenceRounded.C159_zero_iff, DifferenceRounded.C159_closest, DifferenceRounded.factor_close, DifferenceRounded.C159_scaling, DifferenceRounded.C159_scaling_accurate, DifferenceRounded.C159_call, ReplacementRounded.C160_score, ReplacementRounded.C160_score_exact, ReplacementRounded.C160_decision, ReplacementRounded.C160_chance, MachineRandom.C161_crossover, MachineRandom.C161_always, MachineRandom.C161_mutation_factor, MachineRandom.C161_status_quo, SamplerRounded.C162_best_share, SamplerRounded.C162_each_share, SamplerRounded.C162_as_in_theory, SamplerRounded.C162_sample, WideBounds.C163_limit, WideBounds.C163_limit_one_sided, WideBounds.C163_moderate_partial, WideBounds.C163_infinite, WideBounds.C163_too_far_apart, WideBounds.C163_limit_too_large, WideBounds.C163_fixed, LineFitRounded.C164_best_partial, LineFitRounded.C164_order_partial, LineFitRounded.C164_accurate_partial, LineFitRounded.C164_all_partial, LineFitRounded.C164_too_large, LineFitRounded.C164_perfect, HelpText.C165_plain, HelpText.C165_letter, HelpText.C165_default_told, HelpText.C165_twice, HelpText.C165_doubled, FigureRounded.C166_once, FigureRounded.C166_larger_is_better, FigureRounded.C166_boundaries, FigureRounded.C166_best_partial, FigureRounded.C166_equal_scores, FigureRounded.C166_close_scores, RankRounded.C167_drawn, RankRounded.C167_not_drawn, RankRounded.C167_at_most_twice, RankRounded.C167_larger_is_earlier, RankRounded.C167_at_seventy_percent, RankRounded.C167_half, RankRounded.C167_single, PairRounded.C168_enough, PairRounded.C168_close, PairRounded.C168_one_less, PairRounded.C168_round_mean, PairRounded.C168_ends
