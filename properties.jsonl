{"id": "C01", "title": "Unusable scores read back as infinitely bad", "statement": "Whatever is stored as the score of an individual, reading it back gives a number usable for ranking: an unset or negative score reads as +inf, every other score reads unchanged. An individual is 'true' unless its evaluation produced a (negative) fatal-error score, so +inf and never-evaluated individuals are still 'true'.", "quantifier": "every possible stored score (unset, any finite number, +/-inf, NaN)", "why_tests_cant": "The claim ranges over all float values including the special ones; tests sample a few.", "anchors": ["ade/individual.py: Individual.SSE, Individual.__float__, Individual.__bool__"]}
{"id": "C02", "title": "Comparison of individuals is a ranking by score", "statement": "Comparing two individuals with < or > (or an individual with a number) agrees with comparing the scores they read back; < is irreflexive, transitive and asymmetric for all scores, and any two individuals with different non-NaN scores are ordered exactly one way. A failed individual never ranks better than any other.", "quantifier": "every pair/triple of individuals and every stored score, including NaN and infinities", "why_tests_cant": "Order laws are universally quantified over triples of floats with special values.", "anchors": ["ade/individual.py: Individual.__lt__, Individual.__gt__, Individual.SSE"]}
{"id": "C03", "title": "Equal individuals and their hashes", "statement": "Two individuals that compare equal should be interchangeable as dictionary/history keys: individuals whose score and parameter values are bitwise the same have the same identity key, and individuals with the same identity key have the same parameter values and scores that agree in single precision.", "quantifier": "every pair of individuals", "why_tests_cant": "Ranges over all pairs of float vectors; the -0.0 vs 0.0 exception is exactly the kind of case sampled tests miss.", "anchors": ["ade/individual.py: Individual.__hash__, Individual.__eq__, Individual.equals"]}
{"id": "C04", "title": "Limiting always lands inside the bounds", "statement": "Limiting any vector of parameter values with any bounds (lower <= upper for each parameter) gives, for every parameter, a value between its lower and upper bound inclusive.", "quantifier": "every vector of values, however far outside, and every vector of bounds", "why_tests_cant": "Infinite input space; far-outside values that overshoot the opposite bound after reflection are an easy corner to miss.", "anchors": ["ade/population.py: ParameterManager.limit"]}
{"id": "C05", "title": "Limiting is a reflection that leaves legal values alone", "statement": "A value already inside its bounds is unchanged by limiting (so limiting twice equals limiting once); a value outside by no more than the width of the interval is mirrored at the bound it crossed; a value below by between one and two widths is mirrored at both bounds; a value further out on either side ends up at the lower bound.", "quantifier": "every value and every pair of bounds", "why_tests_cant": "Case split over a continuum of values and bounds.", "anchors": ["ade/population.py: ParameterManager.limit"]}
{"id": "C06", "title": "Unit-cube scaling round-trips", "statement": "Scaling a point of the unit cube to parameter values always lands within the bounds, and converting back to the unit cube recovers the point whenever every parameter has a non-degenerate range; conversely every in-bounds vector maps into the unit cube and back to itself.", "quantifier": "every unit-cube point, every parameter vector, every bounds", "why_tests_cant": "Round-trip law over a continuum.", "anchors": ["ade/population.py: ParameterManager.fromUnity, ParameterManager.toUnity, ParameterManager.setup"]}
{"id": "C07", "title": "Constraint check accepts exactly the vectors satisfying every constraint", "statement": "With any list of constraint callables, a vector is accepted exactly when every constraint returns a true value for the dict that maps each parameter name to its value; with no constraints everything is accepted; the verdict does not depend on the order of the constraints. Installing constraints with a non-callable among them raises ValueError and leaves the previously installed ones in force.", "quantifier": "every list of constraints, every vector and name list", "why_tests_cant": "Quantifies over arbitrary user-supplied predicates and list lengths.", "anchors": ["ade/population.py: ParameterManager.passesConstraints, ParameterManager.setConstraints"]}
{"id": "C08", "title": "Relations checker tolerance", "statement": "A relations checker accepts a parameter dict exactly when, for every registered relation, both parameters are defined and the dependent value is within the stated maximum deviation of the linear relation; acceptance does not depend on the order of the relations.", "quantifier": "every set of relations and every parameter dict", "why_tests_cant": "Unbounded set of relations and continuum of values.", "anchors": ["ade/constraints.py: RelationsChecker"]}
{"id": "C09", "title": "Every registered constraint is enforced with its own parameter scaling", "statement": "Iterating over a constraints container yields one checker per registered method, and each checker evaluates its own method on its own named parameters, taking 10**value for those named in its log list. The conjunction of the yielded checkers accepts exactly the vectors that all registered methods accept.", "quantifier": "every list of registered methods with any parameter-name lists, consumed lazily or collected first", "why_tests_cant": "Aliasing of a shared dict and late-bound closures depend on the consumption pattern and on name collisions between methods.", "anchors": ["ade/constraints.py: Constraints.__iter__"]}
{"id": "C10", "title": "Sorted name enumeration is a permutation", "statement": "Enumerating parameters in sorted-name order visits each parameter index exactly once, with its own name, in non-decreasing name order (names being distinct).", "quantifier": "every list of distinct names", "why_tests_cant": "Universal over name lists and orders.", "anchors": ["ade/population.py: ParameterManager.__init__, ParameterManager.sortedNamerator"]}
{"id": "C11", "title": "Sampling returns distinct, allowed population indices", "statement": "Asking a population for N random members (optionally excluding some indices, optionally biased towards the best) returns N pairwise distinct indices, each a valid population index and none of them excluded; asking for a single index returns one such index. With bias 0 the single index returned is that of a best non-excluded member.", "quantifier": "every population size, exclusion list, bias in [0,1], N, and every outcome of the random generator", "why_tests_cant": "Quantifies over all random draws; tests see a few seeds.", "anchors": ["ade/population.py: Population.sample, ProbabilitySampler"]}
{"id": "C12", "title": "Biased index draws stay in range and get better with lower bias", "statement": "For a candidate list of any non-zero length, any bias in [0,1] and any uniform draws in [0,1), the biased sampler returns one of the candidates; with bias <= 0.5 it never returns a candidate ranked beyond the first max(1, ceil(2*bias*n)) places, and bias 0 always returns the first.", "quantifier": "every candidate list, every bias, every pair of uniform draws", "why_tests_cant": "Continuum of random draws, boundary rounding.", "anchors": ["ade/population.py: ProbabilitySampler.trapz, ProbabilitySampler.__call__"]}
{"id": "C13", "title": "Sampling terminates whenever enough members are allowed", "statement": "A request for N biased random members returns whenever there are at least N non-excluded members.", "quantifier": "every bias, N and population", "why_tests_cant": "Non-termination is not observable by a finite test; it depends on the support of the random draw.", "anchors": ["ade/population.py: Population.sample"]}
{"id": "C14", "title": "Population size clamp", "statement": "The size of a new population is the size multiplier times the number of parameters clamped to [20, 500], for every multiplier and number of parameters, and the number of index locks equals the population size.", "quantifier": "every multiplier and dimension", "why_tests_cant": "Universal arithmetic fact over all configurations.", "anchors": ["ade/population.py: Population.__init__, Population.clear"]}
{"id": "C15", "title": "Best-member queries are never stale", "statement": "After any sequence of member assignments, pushes, clears and queries on a population, the member reported as best has a score no worse than every current member, and the reported ranking is a permutation of the current indices in non-decreasing score order.", "quantifier": "every sequence of operations of any length and every score values", "why_tests_cant": "Cache invalidation must hold over all operation histories.", "anchors": ["ade/population.py: Population.KS, iSorted, kBest, __setitem__, push, best, clear"]}
{"id": "C16", "title": "Push replaces only the worst member", "statement": "Pushing an individual onto a full population replaces a member having the worst score and leaves all others in place, so the best score never gets worse through a push.", "quantifier": "every population and every pushed individual", "why_tests_cant": "Universal over populations.", "anchors": ["ade/population.py: Population.push"]}
{"id": "C17", "title": "Setup yields exactly a full, legal, scored population", "statement": "If setting up a population completes without abort, the population has exactly its target size, every member's evaluation gave a score that is not infinite, and every member lies within the bounds and satisfies all constraints, no matter in which order the concurrent evaluations finish.", "quantifier": "every order of completion of concurrent evaluations, every score sequence, every source of candidate points", "why_tests_cant": "Schedules of concurrently running evaluations and random candidates are unbounded.", "anchors": ["ade/population.py: Population.setup (getIndividual, addIndividual, evaluated, populate, done)"]}
{"id": "C18", "title": "A fatal evaluation during setup aborts it", "statement": "If any evaluation made during setup reports a fatal error (negative score or exception), setup ends with an abort indication and the failing individual is never a member.", "quantifier": "every schedule and position of the failure", "why_tests_cant": "Depends on completion order.", "anchors": ["ade/population.py: Population.setup.evaluated, Population.abort"]}
{"id": "C19", "title": "Initial population is a Latin hypercube", "statement": "When every candidate satisfies the constraints and evaluates to a finite score, the initial population uses every row of the generated Latin hypercube design (so each parameter range is stratified into as many intervals as there are members).", "quantifier": "every population size and design matrix", "why_tests_cant": "Off-by-one in consuming rows is invisible in statistical tests.", "anchors": ["ade/population.py: Population.setup.getNextIV"]}
{"id": "C20", "title": "Status quo decision follows the replacement score", "statement": "Between two status-quo inquiries the replacement score is the sum, over the reported replacements since the last inquiry, of 0.1 for a ratio of zero and (ratio - 0.5) otherwise, and starts again at zero with each inquiry; the first inquiry always keeps the status quo; a later one always keeps it if the score reaches the target, never keeps it if the score is zero, and otherwise keeps it with a probability that rises monotonically with the score.", "quantifier": "every sequence of replacement reports and inquiries, every score target", "why_tests_cant": "History-dependent accumulator over unbounded operation sequences.", "anchors": ["ade/population.py: Population.replacement, Population._keepStatusQuo"]}
{"id": "C21", "title": "Adaptive mutation range stays within its original limits", "statement": "Whatever sequence of scale-down and scale-up requests is made, the mutation range (lo, hi) keeps 0 < lo <= hi, lo never exceeds its original value and hi never exceeds its original value, provided the original range satisfies 0 < lo <= hi; every drawn mutation factor lies in the current range.", "quantifier": "every sequence of up/down requests of any length, every initial range, every random draw", "why_tests_cant": "Invariant over unbounded operation sequences on reals.", "anchors": ["ade/de.py: FManager.down, FManager.up, FManager.get, lowest/highest properties"]}
{"id": "C22", "title": "Repeated scale-down eventually reports the limit and never goes below the critical value", "statement": "Starting anywhere, sufficiently many consecutive scale-down requests on an adaptive range always reach a state in which the limit is reported, after which the range no longer changes until scaled up; scale-down never moves the lower limit to or below the critical value; the limit is reported only when neither limit can be lowered further.", "quantifier": "every initial range, crossover rate and population size", "why_tests_cant": "Termination over reals needs an Archimedean argument.", "anchors": ["ade/de.py: FManager.down, FManager.criticalF"]}
{"id": "C23", "title": "A non-adaptive mutation range never changes", "statement": "With adaptation switched off, or with a lower limit given as zero, no sequence of scaling requests ever changes the mutation range nor reports a limit.", "quantifier": "every sequence of requests", "why_tests_cant": "Universal over sequences.", "anchors": ["ade/de.py: FManager.__init__, FManager.down, FManager.up"]}
{"id": "C24", "title": "A trial vector has the documented donor and crossover form and is legal", "statement": "Each challenger produced for a target has, for every parameter, either the target's value or the limited donor value base + F*(r0 - r1); at least one parameter is taken from the donor, all parameters are from the donor when the crossover rate is 1, and if the target was within the bounds the challenger is within the bounds.", "quantifier": "every population content, F, crossover rate and random draws", "why_tests_cant": "Universal over real vectors and random draws.", "anchors": ["ade/de.py: DifferentialEvolution.challenge, crossover"]}
{"id": "C25", "title": "Challenges use four distinct members", "statement": "For every target index, strategy setting and random outcome, the target, base and two difference members are four pairwise distinct valid indices, so the lock request of a challenge is never rejected. Without a random base, the base of every challenge of a run is the best member unless that is the target.", "quantifier": "every population size >= 4, every random outcome, every ranking", "why_tests_cant": "Universal over random draws and rankings.", "anchors": ["ade/de.py: DifferentialEvolution.challenge", "ade/population.py: Population.sample, Population.lock"]}
{"id": "C26", "title": "Index locks give mutual exclusion", "statement": "Until the run is shut down, no two challenges have been granted the lock of the same population index. At every moment of every execution, no member is read as target, base or difference by one challenge while it is the target of another one in progress; a challenge granted its locks after a shutdown reads no member at all.", "quantifier": "every schedule of lock requests, evaluation completions and releases", "why_tests_cant": "All interleavings.", "anchors": ["ade/population.py: Population.lock, Population.release", "ade/de.py: DifferentialEvolution.challenge"]}
{"id": "C27", "title": "No deadlock among challenges", "statement": "In every reachable state in which some issued challenge has not finished, some challenge can make progress without any new challenge being issued, and every execution in which evaluations complete finishes all challenges in a bounded number of steps.", "quantifier": "every list of challenges with any index sets and every schedule", "why_tests_cant": "Absence of deadlock ranges over all interleavings.", "anchors": ["ade/population.py: Population.lock, Population.release", "ade/de.py: DifferentialEvolution.challenge"]}
{"id": "C28", "title": "Asynchronous evolution equals sequential evolution", "statement": "For any list of challenges (their four indices and random draws), whatever the order in which the concurrent evaluations finish, the final population equals the one obtained by running the challenges one after the other in the order they were issued with a blocking evaluator.", "quantifier": "every list of challenges, every evaluator function, every interleaving", "why_tests_cant": "This is a serializability claim over all schedules; tests run one.", "anchors": ["ade/de.py: DifferentialEvolution.challenge, _run", "ade/population.py: Population.lock, Population.release", "README.md"]}
{"id": "C29", "title": "Members never get worse", "statement": "During a run, in every schedule, the score at each population index never gets worse and a member is only ever replaced by a strictly better one; hence the best score of the population is non-increasing.", "quantifier": "every schedule of concurrent challenges, every evaluator outcome", "why_tests_cant": "All interleavings and evaluator outcomes.", "anchors": ["ade/de.py: DifferentialEvolution.challenge"]}
{"id": "C30", "title": "Members stay legal throughout a run", "statement": "If every initial member is within bounds and satisfies the constraints, then every member at every moment of a run is within the bounds and satisfies the constraints.", "quantifier": "every schedule, every mutation outcome", "why_tests_cant": "Invariant over unbounded executions.", "anchors": ["ade/de.py: DifferentialEvolution.challenge", "ade/population.py: ParameterManager.limit, passesConstraints"]}
{"id": "C31", "title": "Any member with an unusable score can be improved upon", "statement": "A challenger with a finite score always beats a target whose score is infinite or not a number.", "quantifier": "every target score", "why_tests_cant": "NaN comparisons are a corner case of float semantics.", "anchors": ["ade/de.py: DifferentialEvolution.challenge", "ade/individual.py: Individual.__lt__"]}
{"id": "C32", "title": "Each generation challenges each member exactly once and runs are bounded", "statement": "A run executes at most the configured maximum number of generations; each executed generation issues exactly one challenge per population index; the per-generation user callback is called with consecutive generation numbers starting at 0, once for each generation other than one in which the run stops early. A population whose setup was aborted is not run on at all; any other one has its best individual reported before the first generation.", "quantifier": "every configuration and every outcome of the generations", "why_tests_cant": "Unbounded loop behaviour over all outcomes.", "anchors": ["ade/de.py: DifferentialEvolution._run, __call__"]}
{"id": "C33", "title": "Give-up rule of adaptive runs", "statement": "A run with an adaptive mutation range and without 'bitter end' stops before the maximum generation exactly when the range has been reported limited in more than the configured number of generations since the last status-quo generation; with 'bitter end' it never stops for that reason.", "quantifier": "every sequence of status-quo decisions", "why_tests_cant": "History dependent stop rule over unbounded sequences.", "anchors": ["ade/de.py: DifferentialEvolution._run"]}
{"id": "C34", "title": "A run stops once the goal score is reached", "statement": "When a goal score is configured, a run ends after the first generation in which the best member's score is below the goal, and otherwise continues; configuring a goal never makes a run fail.", "quantifier": "every goal and every score history", "why_tests_cant": "Needs reasoning about the stop condition for every history.", "anchors": ["ade/de.py: DifferentialEvolution._run"]}
{"id": "C35", "title": "After shutdown nothing changes", "statement": "Once a run has been shut down, no population member is replaced, no new challenger evaluation is started for a challenge that had not begun one, every outstanding challenge still finishes, and a second shutdown has no further effect. A fatal error during an evaluation shuts the run down without changing a member.", "quantifier": "every moment of shutdown and every schedule after it", "why_tests_cant": "Crash/abort point ranges over all moments.", "anchors": ["ade/de.py: DifferentialEvolution.shutdown, challenge", "ade/population.py: Population.abort, release"]}
{"id": "C36", "title": "History is bounded and sorted", "statement": "After any sequence of additions, removals from the population, purges and clears, the history holds at most its maximum number of records, each in its own storage row, and its records in iteration order have non-decreasing scores.", "quantifier": "every sequence of history operations, every capacity >= 4, every score", "why_tests_cant": "Invariant over unbounded operation sequences.", "anchors": ["ade/history.py: History.add, kkr, purge, notInPop, purgePop, clear"]}
{"id": "C37", "title": "History never loses or corrupts a record except by eviction", "statement": "Provided that individuals can be represented in single precision and that the population is not purged from the history: as long as the capacity has not been exceeded, the history holds exactly one unaltered record per added individual with a usable score, and adding to a full history (of capacity 2 or at least 4, not consisting of population members only) replaces exactly one record by the one just added.", "quantifier": "every sequence of additions", "why_tests_cant": "Row allocation errors show only for particular row sets.", "anchors": ["ade/history.py: History.add, kkr, __getitem__, value_vs_SSE"]}
{"id": "C38", "title": "Current population members are never evicted", "statement": "Adding an individual to a full history evicts a record that is not a current population member, whatever the contents; records of current members are only removed by purge of the population or clear.", "quantifier": "every history state and addition", "why_tests_cant": "Invariant over histories.", "anchors": ["ade/history.py: History.add, ClosestPairFinder"]}
{"id": "C39", "title": "Adding to a history never fails or blocks", "statement": "Every addition of an evaluated individual completes: it reports the row used, or reports that nothing was added (unusable score), and later additions still work.", "quantifier": "every capacity, content and individual", "why_tests_cant": "Depends on rare full-roster states.", "anchors": ["ade/history.py: History.add, kkr, ClosestPairFinder.__call__"]}
{"id": "C40", "title": "Total-evaluated counter", "statement": "As long as no addition has failed with an exception, the history's total counter equals the number of individuals with a usable score added since the last clear, whether or not they have been evicted or purged since. It never decreases except by a clear.", "quantifier": "every sequence of operations", "why_tests_cant": "Universal over sequences.", "anchors": ["ade/history.py: History.add, __len__, clear"]}
{"id": "C41", "title": "Membership marking follows the population", "statement": "After any sequence of member assignments through the population, the history records marked as population members are exactly those of the current members, and those replaced are marked as former members.", "quantifier": "every sequence of assignments", "why_tests_cant": "History/population coupling over unbounded sequences; depends on identity keys.", "anchors": ["ade/population.py: Population.__setitem__", "ade/history.py: History.add, notInPop"]}
{"id": "C42", "title": "Membership views partition the records", "statement": "The record subsets 'in population', 'formerly in population' and 'never in population' are pairwise disjoint and together are all records, after any sequence of operations.", "quantifier": "every sequence of operations", "why_tests_cant": "Set-partition invariant over histories.", "anchors": ["ade/history.py: Analysis/History K, Kp, Kn, value_vs_SSE"]}
{"id": "C43", "title": "Eviction removes exactly one eligible record, from the closest pair", "statement": "When a full history must make room, exactly one record is removed, it is eligible (non-finite rows can not be registered), and if only one record is eligible that one is removed. In a history from which the population was never purged, the eligible records are exactly those not of current population members.", "quantifier": "every set of eligible records and every distance data", "why_tests_cant": "Quantifies over record sets.", "anchors": ["ade/history.py: ClosestPairFinder.setRow, clearRow, __call__, pairs_sampled, pairs_all"]}
{"id": "C44", "title": "Saving and loading keeps the history", "statement": "Restoring a saved history gives the same records in the same order with the same membership marks and counters, and it stays fully usable for further additions.", "quantifier": "every reachable history state", "why_tests_cant": "Round-trip law over all states, including index-width limits.", "anchors": ["ade/history.py: History.__getstate__, __setstate__, seq2bytes, bytes2array"]}
{"id": "C45", "title": "Saving and loading keeps the population", "statement": "A population restored from a saved state has the same members in the same order, the same parameter names, bounds and size, is runnable without another setup (if it was set up), and has fresh unlocked index locks; loading with narrower bounds leaves every member inside the new bounds.", "quantifier": "every population state and new bounds", "why_tests_cant": "Round-trip law over all states.", "anchors": ["ade/population.py: Population.load, __getstate__, __setstate__, limit"]}
{"id": "C46", "title": "The reported best is the best seen", "statement": "After any sequence of reports, the individual remembered as best has a score no worse than any individual reported as a new best without a complaint, and reporting an individual with no better score never changes it.", "quantifier": "every sequence of reports", "why_tests_cant": "Universal over sequences.", "anchors": ["ade/report.py: Reporter.newBest, msgRatio, __call__"]}
{"id": "C47", "title": "Ratio of a report reflects rounded improvement", "statement": "A report of a target and a challenger returns None if the target is better, 0 if the two scores are equivalent (within 2%), and otherwise the whole number nearest to the ratio of target score to challenger score (the even one if two are equally near), at least 1, which never decreases when the challenger's score gets smaller. The progress character shown is X for None, otherwise that number, cut off at 9.", "quantifier": "every pair of individuals and scores", "why_tests_cant": "Universal over float pairs including inf.", "anchors": ["ade/report.py: Reporter.msgRatio, __call__, progressChar"]}
{"id": "C48", "title": "User callbacks run one batch at a time and the latest best is always delivered", "statement": "Report callbacks for one individual are run one after another in registration order; two batches never overlap; if new bests arrive while a batch is in progress, the most recent of them is delivered next, so when everything has settled the last reported best has been delivered, as long as no callback or complaint handler fails.", "quantifier": "every interleaving of new bests with callback completions", "why_tests_cant": "All interleavings.", "anchors": ["ade/report.py: Reporter.runCallbacks, newBest", "ade/util.py: Bag"]}
{"id": "C49", "title": "A complaint restores the previous best", "statement": "When a report callback complains about a new best individual, that individual becomes infinitely bad and the remembered best reverts to the previous best.", "quantifier": "every complaint at any point of any report sequence", "why_tests_cant": "Depends on the interleaving of complaint with further reports.", "anchors": ["ade/report.py: Reporter.runCallbacks, newBest", "ade/individual.py: Individual.blacklist"]}
{"id": "C50", "title": "Specs lookup", "statement": "Looking up a path of names in loaded specs returns the value stored at exactly that path, or an empty dict if there is none.", "quantifier": "every specs tree and every path", "why_tests_cant": "Universal over trees and paths.", "anchors": ["ade/specs.py: Specs.get, DictStacker, Specs.add"]}
{"id": "C51", "title": "Specs values parse back to what was written", "statement": "Every integer, decimal number, number with exponent, None/True/False (in any case), and list of them separated by spaces, with or without commas, that is written in a specs file is read back as that value.", "quantifier": "every such literal", "why_tests_cant": "Round-trip over an infinite language of literals.", "anchors": ["ade/specs.py: SpecsLoader.parseValue, parseName, read"]}
{"id": "C52", "title": "Specs reader is total", "statement": "Reading any text as a specs file either stores attributes for it or reports a syntax problem; in particular empty files and key-only lines do not crash the reader.", "quantifier": "every text", "why_tests_cant": "Universal over texts.", "anchors": ["ade/specs.py: SpecsLoader.read"]}
{"id": "C53", "title": "Abort callbacks run exactly once, in order", "statement": "When the user aborts, every function registered since the last restart is called exactly once in registration order, and a second key press calls nothing again. If one of the functions fails, those after it are called by the next key press, still in order and none twice. A function registered after an abort is called once, as soon as the reactor gets to it.", "quantifier": "every sequence of registrations and abort events", "why_tests_cant": "Universal over event sequences.", "anchors": ["ade/abort.py: KeyboardHolder, Keyboard, callOnAbort, shutdown"]}
{"id": "C54", "title": "The latest-value bag", "statement": "The latest-value holder used for callbacks returns the most recently placed value, at most once per placement, and reports itself empty exactly when nothing was placed since the last removal.", "quantifier": "every sequence of put/take operations", "why_tests_cant": "Universal over sequences.", "anchors": ["ade/util.py: Bag"]}
{"id": "C55", "title": "Evaluation timer orders by average duration", "statement": "The evaluation timer ranks the timed items by their average elapsed evaluation time.", "quantifier": "every sequence of start/stop events", "why_tests_cant": "Universal over event sequences.", "anchors": ["ade/util.py: EvalTimer"]}
{"id": "C56", "title": "Message layout", "statement": "Every message written through the messenger appears in the output in call order on a line of its own; progress characters appear one after another and are terminated by a newline before the next line; 0 or -1 before a text puts a blank line before it; while no output file is set, or after the file failed, nothing is written.", "quantifier": "every sequence of message calls", "why_tests_cant": "History-dependent newline logic.", "anchors": ["ade/util.py: Messenger"]}
{"id": "C57", "title": "Unique plot file names", "statement": "Every plot file path handed out by one analysis object differs from all paths it handed out since its base path was set.", "quantifier": "every sequence of requests", "why_tests_cant": "Universal over sequences of names, including names that look like numbered ones.", "anchors": ["ade/history.py: Analysis.filePath"]}
{"id": "C58", "title": "Column/name mapping", "statement": "Converting parameter names to record columns and back is the identity, and column 0 always denotes the score.", "quantifier": "every list of distinct names", "why_tests_cant": "Universal.", "anchors": ["ade/history.py: Analysis.name2k, k2name"]}
{"id": "C59", "title": "Log grepper keeps the best rows", "statement": "When more log entries qualify than the row limit, the ones kept are those with the lowest scores, and the kept rows stay in score order.", "quantifier": "every set of entries and limit", "why_tests_cant": "Universal over sets.", "anchors": ["ade/scripts/lgg.py: RowManager.trim"]}
{"id": "C60", "title": "Records that never were members are evicted first when they dominate", "statement": "When records that never were in the population come to outnumber the former members among the eligible records, the preference for evicting them gets dramatically stronger.", "quantifier": "every set of eligible records and number of never-members", "why_tests_cant": "Quantifies over all record counts.", "anchors": ["ade/history.py: ClosestPairFinder.calcerator"]}
{"id": "C61", "title": "Score-ratio queries", "statement": "A query of the history with a maximum ratio returns exactly the records of the requested membership whose score is at most that ratio times the best score; with a ratio of one or more the best record is included.", "quantifier": "every history, ratio and membership keyword", "why_tests_cant": "Universal over scores, including a perfect score of zero.", "anchors": ["ade/history.py: Analysis.value_vs_SSE"]}
{"id": "C62", "title": "Callbacks have seen the best, nearly", "statement": "As long as reports are not forced and nobody complains, the individual last handed to the report callbacks (or about to be) is the one remembered as best or has a score within 2% of it.", "quantifier": "every sequence of reports", "why_tests_cant": "The 2% rule compounds over long sequences of small improvements; tests use short sequences.", "anchors": ["ade/report.py: Reporter.newBest, isEquivSSE, __call__"]}
{"id": "C63", "title": "A specs document means what its lines say", "statement": "Reading a well-formed specs file (attributes, lists, dictionary blocks with nested keys, comments and blank lines in any number) stores exactly the attributes and values that its layout describes.", "quantifier": "every well-formed document", "why_tests_cant": "Universal over documents of any size and nesting.", "anchors": ["ade/specs.py: SpecsLoader.read, parseLine, DictStacker.add"]}
{"id": "C64", "title": "Line-written query", "statement": "The messenger's lineWritten() tells whether a line was written since it was last called.", "quantifier": "every sequence of message calls", "why_tests_cant": "History-dependent.", "anchors": ["ade/util.py: Messenger.lineWritten, writeLine"]}
{"id": "C65", "title": "Starred parameters of the best log entries", "statement": "The parameter names the log grepper reports as starred are exactly those starred in at least one of the requested number of entries with the lowest scores.", "quantifier": "every log and number of entries", "why_tests_cant": "Universal over logs, including ties between scores.", "anchors": ["ade/scripts/lgg.py: Reader.starredNames"]}
{"id": "C66", "title": "Scaling up undoes scaling down", "statement": "A scale-up raises exactly one of the limits of an adaptive mutation range that have been lowered (the upper one first), strictly and never beyond its original value, and changes nothing if none has been lowered; whatever requests came before, sufficiently many consecutive scale-ups restore the original range or single factor, and further ones leave it so.", "quantifier": "every sequence of up/down requests of any length, every initial setting", "why_tests_cant": "Termination over reals needs an Archimedean argument; universal over sequences.", "anchors": ["ade/de.py: FManager.up, FManager.down, lowest/highest properties"]}
{"id": "C67", "title": "How a challenger is evaluated", "statement": "The evaluator is called for a challenger exactly if every constraint accepts its parameters, with exactly those parameters and with the target's score exactly if xSSE is set; the challenger's score is what the evaluator returned; the challenge is a fatal error exactly if the evaluation failed or returned a negative score.", "quantifier": "every target, base, difference, draws, constraints and evaluator", "why_tests_cant": "Universal over real vectors, evaluators and constraint sets.", "anchors": ["ade/de.py: DifferentialEvolution.challenge", "ade/individual.py: Individual.evaluate"]}
{"id": "C68", "title": "A new best individual keeps the run alive", "statement": "Each reported challenge adds its documented worth to the score of the generation, plus a bonus of 0.5 if the challenger is a new best individual; the range is not scaled down after a generation that brought a new best individual, and the run goes on as long as every generation brings one.", "quantifier": "every sequence of reports, callbacks and inquiries, every target score", "why_tests_cant": "History-dependent interplay of reporter, population and run loop.", "anchors": ["ade/de.py: DifferentialEvolution.__call__ (documentation), _run", "ade/population.py: Population.report, replacement", "ade/report.py: Reporter.__call__, msgRatio"]}
{"id": "C69", "title": "Each parameter is plotted once", "statement": "Plotting a history shows each requested parameter in exactly one subplot, in order (all parameters by name if none is requested), on figures with at most nine subplots in at most three rows and columns and never a single one unless only one parameter is plotted; with a positive best score and no purge of the population, the subplot of a parameter shows score and value of each record (with a score up to the maximum ratio times the best) exactly once, in the series of its membership.", "quantifier": "every history and selection of parameters", "why_tests_cant": "Universal over numbers of parameters and records.", "anchors": ["ade/history.py: Analysis.plot, pick_N, args2names, value_vs_SSE"]}
{"id": "C70", "title": "Correlations are listed from strongest to weakest", "statement": "The correlator yields each pair of parameters exactly once, the lower column first, in order of non-increasing absolute correlation.", "quantifier": "every number of parameters and all correlation coefficients", "why_tests_cant": "Universal over data.", "anchors": ["ade/history.py: Analysis.correlator"]}
{"id": "C71", "title": "The most correlated pairs are shown", "statement": "plotCorrelated shows the N most correlated pairs of parameters, or all if there are fewer; with a name, the N most correlated pairs that include that parameter.", "quantifier": "every number of parameters, correlations, name and N", "why_tests_cant": "Universal over data; depends on the position of the name.", "anchors": ["ade/history.py: Analysis.plotCorrelated"]}
{"id": "C72", "title": "Marker groups of an X-Y plot", "statement": "In a plot of two parameters, each record with a score in the lower 70% (by score range or by rank) is drawn in exactly one marker group, that of the range its score or rank is in. A larger marker means a lower score or an earlier rank.", "quantifier": "every list of scored records", "why_tests_cant": "Universal over records, including equal scores and boundary positions.", "anchors": ["ade/history.py: Analysis.plotXY, Kf12, Kp12"]}
{"id": "C73", "title": "Weights of the line fit", "statement": "In the line fit the best record has weight one, weights are positive and decrease with the score, and a record that is many times worse than the best has approximately the weight 2*best/score.", "quantifier": "every list of non-negative scores", "why_tests_cant": "Universal over scores, including a perfect score of zero.", "anchors": ["ade/history.py: Analysis.lineFit"]}
{"id": "C74", "title": "The work of a setup is bounded", "statement": "During a setup at most N_maxParallel evaluations are under way at once; the number of evaluations started never exceeds the target size plus the number of unusable results plus N_maxParallel-1; the number of members is at all times the number of usable scores delivered, up to the target size; and once that many have been delivered and the outstanding evaluations have ended, the setup completes.", "quantifier": "every order in which evaluations end, every result, any limit of parallel evaluations", "why_tests_cant": "Universal over interleavings and results; unbounded numbers of unusable results.", "anchors": ["ade/population.py: Population.setup"]}
{"id": "C75", "title": "History requests take effect in the order of the calls", "statement": "Although add() may have to wait for the closest-pair finder, the requests made of a history take effect one after the other in the order of the calls; when the Deferred of a request fires, all earlier requests have taken effect and no later one; none is lost.", "quantifier": "every sequence of requests and every timing of the closest-pair finder", "why_tests_cant": "Universal over interleavings of requests and of the thread's results.", "anchors": ["ade/history.py: History.add, notInPop, value_vs_SSE, purgePop, shutdown (dLock)"]}
{"id": "C76", "title": "Aborting the population during a run does no harm", "statement": "When the population is aborted at any time during a run (by the Enter key or by a failing callback), every member remains or is replaced by a strictly better one, all challenges return, the evaluation function is called only with None from then on, and once the run is shut down as well no member changes any more, provided that the evaluation function gives no usable score for None.", "quantifier": "every run, every interleaving, any number of aborts and shutdowns at any point", "why_tests_cant": "Universal over interleavings; aborting releases locks that challenges hold.", "anchors": ["ade/population.py: Population.abort, lock, release, evalFunc", "ade/de.py: DifferentialEvolution.challenge"]}
{"id": "C77", "title": "How likely each base candidate is to be chosen", "statement": "With a random bias between 0 and 1, the sampler chooses each of the candidates, ordered by rank, with the probability of its interval under a density that is constant up to a corner and then falls linearly to zero: the probabilities add up to one, a better candidate is never less likely than a worse one, the best ones are equally likely above bias 0.5, the probability drops with each rank at or below 0.5, a larger bias never favours the best candidates more, near 0 only the best one is chosen, at 1 all are equally likely and near 1 the worst is only slightly less likely than the best.", "quantifier": "every list of candidates, every exclusion, every bias in (0, 1]", "why_tests_cant": "A statement about exact probabilities; sampling can only estimate them.", "anchors": ["ade/population.py: ProbabilitySampler.__call__, Population.sample"]}
{"id": "C78", "title": "Losing challengers are recorded once", "statement": "A challenger that was evaluated but did not beat its target is put into the history exactly once as never having been in the population, if partial evaluations (xSSE) are off; with xSSE it is never recorded, nor are winners, challengers that failed the constraints or whose evaluation was a fatal error.", "quantifier": "every run, every interleaving of challenges, shutdowns at any point", "why_tests_cant": "Universal over interleavings of concurrent challenges.", "anchors": ["ade/de.py: DifferentialEvolution.challenge"]}
{"id": "C79", "title": "Values are printed completely and in order", "statement": "The printed form of an individual or of parameter values has, after the prelude, exactly one item name=value for each parameter, sorted by name, on lines of at most 120 characters that are broken only where the next item does not fit; one star marks a value in the lowest 5% of its parameter's range, two stars one in the highest 5%, and no other value has stars.", "quantifier": "every list of parameters, every value, every format of numbers", "why_tests_cant": "Universal over names, values, ranges and line lengths.", "anchors": ["ade/population.py: ParameterManager.prettyValues, stringValue, sortedNamerator", "ade/individual.py: Individual.__repr__"]}
{"id": "C80", "title": "The log grepper reads back what was logged", "statement": "From a log with any entries, broken into lines in any way and with any other lines between them, lgg reads exactly those entries, in order, each with its SSE, all of its parameters, the text of their values and their stars; an SSE that is no number ends it with an exception after the entries before it; this includes every printed individual with a finite SSE whose parameter names are of letters, digits and underscores and start with a letter.", "quantifier": "every log, every individual, every way of wrapping", "why_tests_cant": "Universal over texts; the result depends on how two regular expressions match.", "anchors": ["ade/scripts/lgg.py: Grepper.filerator", "ade/individual.py: Individual.__repr__"]}
{"id": "C81", "title": "The log grepper reads back the final population", "statement": "From a log that ends with the printed final population, lgg reads the logged entries, then the best individual, then one entry for each column of the table, with its SSE and, for every parameter, the text of its value and its stars. The columns of the printed table are aligned.", "quantifier": "every log, every population with at least one parameter", "why_tests_cant": "Universal over texts, numbers of parameters and members; a round trip through printing and parsing.", "anchors": ["ade/scripts/lgg.py: Grepper.filerator", "ade/population.py: Population.__repr__"]}
{"id": "C82", "title": "The log grepper shows the parameters asked for", "statement": "With arguments, lgg shows exactly the parameters of the log's first entry that match one of the glob patterns given, each once, sorted by name; a range like x1-3 stands for x1, x2 and x3.", "quantifier": "every log, every list of arguments", "why_tests_cant": "Universal over names and patterns.", "anchors": ["ade/scripts/lgg.py: Grepper.__init__, globNames, RowManager.setupNames, addRange"]}
{"id": "C83", "title": "The log grepper's table is complete and aligned", "statement": "Every row of lgg's table shows the SSE of an entry and then, for every parameter shown, in order, its value with its stars; if names and values take at most ten characters, each value is right-justified under the name of its parameter.", "quantifier": "every list of entries, every list of names", "why_tests_cant": "Universal over names, values and stars.", "anchors": ["ade/scripts/lgg.py: Grepper.load, rj, makeLines"]}
{"id": "C84", "title": "Duplicated records are evicted first", "statement": "When the history has to make room and two of the records that may go have the same score and values, the record chosen has an exact twin that stays, so that no information is lost; of pairs that are equally far apart one with better scores is kept, and with equal scores one whose first record was in the population is kept.", "quantifier": "every sequence of updates of the finder, all non-negative scores, all values", "why_tests_cant": "Universal over real-valued rows and scores.", "anchors": ["ade/history.py: ClosestPairFinder.calcerator, __call__"]}
{"id": "C85", "title": "Eviction does not depend on the units of parameters", "statement": "The records present are those set and not cleared since, with the values last set; the record chosen for eviction depends only on them, not on a scaling of the columns cached before they changed; measuring a parameter from another zero changes no distance, and measuring it in another unit changes distances at most by a factor of 1+1E-20/v, where v is the smaller variance of that parameter in the two units.", "quantifier": "every sequence of setRow and clearRow calls and queries, every change of units", "why_tests_cant": "Universal over rows, units and sequences of updates of a cache.", "anchors": ["ade/history.py: ClosestPairFinder.setRow, clearRow, calcerator"]}
{"id": "C86", "title": "How likely each parameter is to come from the mutant", "statement": "In a challenger, each parameter independently comes from the mutant with probability CR, apart from one parameter, chosen uniformly, which always does; hence a given parameter does with probability CR + (1-CR)/n, and 1 + CR(n-1) parameters do on average.", "quantifier": "every crossover rate in [0, 1], every number n of parameters", "why_tests_cant": "A statement about exact probabilities; sampling can only estimate them.", "anchors": ["ade/de.py: DifferentialEvolution.crossover"]}
{"id": "C87", "title": "Progress characters and messages share the output", "statement": "However progress characters and lines of text follow each other, the output consists of the lines of text, each on a line of its own, and of lines of at most maxLineLength progress characters; nothing is lost or reordered. While only progress characters are written, a line break comes after every maxLineLength-th character and nowhere else.", "quantifier": "every sequence of progress characters and lines of text, every limit", "why_tests_cant": "Universal over sequences of reports.", "anchors": ["ade/report.py: Reporter.progressChar", "ade/util.py: Messenger.writeLine, writeChar"]}
{"id": "C88", "title": "The best solution evaluated is never lost", "statement": "At any time during a run, nothing evaluated so far, in the initial population or as a challenger before a shutdown, has a better score than the best member of the population, and the best member is one of these; provided that no initial score is NaN.", "quantifier": "every run, every interleaving of concurrent challenges, any evaluation function", "why_tests_cant": "Universal over interleavings and evaluation functions.", "anchors": ["ade/de.py: DifferentialEvolution.challenge", "ade/population.py: Population.best, __setitem__"]}
{"id": "C89", "title": "What survives pickling", "statement": "An object of a class derived from Picklable has after pickling and unpickling the attributes it had before.", "quantifier": "every class and object, with and without __slots__", "why_tests_cant": "Universal over sets of attribute names.", "anchors": ["ade/util.py: Picklable.__getstate__, __setstate__"]}
{"id": "C90", "title": "Options of a run", "statement": "Each option of DifferentialEvolution that is given as a keyword, other than as None, has the value given, each other one has its documented default; a number given as crossover rate is rejected exactly if it is below 0 or above 1; keywords that are not options change nothing.", "quantifier": "every set of keywords and values", "why_tests_cant": "Universal over sets of keywords and values.", "anchors": ["ade/de.py: DifferentialEvolution.__init__"]}
{"id": "C91", "title": "One image viewer at a time", "statement": "At most one image viewer runs for a plot: it is started when the image first changes, the first installed one is used and the next one only if that one ends with an error message, none is started while one of an earlier run is alive; it is started with its options, told to terminate when the image is removed, and another one is started when the image appears again. Each viewer that fails, and the lack of one, is reported unless complaints are turned off.", "quantifier": "every list of viewers, every sequence of changes of the file and ends of viewers", "why_tests_cant": "Universal over sequences of external events.", "anchors": ["ade/image.py: ImageViewer"]}
{"id": "C92", "title": "Units and order of parameters do not matter", "statement": "Measuring parameters in other units (a positive factor and another zero per parameter) or listing them in another order changes nothing: with bounds, constraints, evaluation function, initial values and random draws converted or reordered accordingly, every run leads to the same population, converted or reordered.", "quantifier": "every positive change of units, every permutation, every run and interleaving, any evaluation function", "why_tests_cant": "Universal over units, orders, evaluation functions and interleavings.", "anchors": ["ade/de.py: DifferentialEvolution.challenge, crossover", "ade/population.py: ParameterManager.limit, fromUnity, passesConstraints"]}
{"id": "C93", "title": "Only the ranking of scores matters to challenges", "statement": "When the evaluation function returns its scores on another, strictly increasing scale (unusable scores staying as they are), every run with the same schedule and random draws leads to the same population with its scores on that scale.", "quantifier": "every strictly increasing scale, every run and interleaving, any evaluation function", "why_tests_cant": "Universal over scales, evaluation functions and interleavings.", "anchors": ["ade/de.py: DifferentialEvolution.challenge", "ade/individual.py: Individual.__lt__, SSE, __bool__"]}
{"id": "C94", "title": "Aborting evaluations early changes nothing but time", "statement": "With xSSE on, an evaluation function that stops early only when the challenger cannot win any more leads to the same populations as without xSSE (every execution with it corresponds to one without it, and the other way round); only which losing challengers are recorded in the history differs. The evaluation of the thermistor example is such a function. It looks at no thermistor after the one with which the sum exceeds the score to beat.", "quantifier": "every run and interleaving, every evaluation function that stops soundly, all data and parameter values", "why_tests_cant": "Universal over interleavings and evaluation functions.", "anchors": ["ade/de.py: DifferentialEvolution.challenge", "ade/examples/thermistor.py: Evaluator.__call__"]}
{"id": "C95", "title": "Thermistor example: parameters, curve, penalty, weights", "statement": "The curve of each thermistor is the Steinhart-Hart equation with the four common coefficients times that thermistor's four scaling factors, for which the bounds leave room on both sides of one. Within the bounds, a higher resistance gives a lower temperature, above absolute zero. The score is the sum of the weighted squared errors times a penalty that is at least one, and one exactly if the geometric mean of each kind of scaling factors is one. It is zero exactly for curves through all readings that have a weight. A reading's weight is 1, 10 or 30 by its coldness times a factor that falls as the temperature changes faster; the first reading has weight zero.", "quantifier": "all parameter values within the bounds, all data", "why_tests_cant": "Universal over real parameter values.", "anchors": ["ade/examples/thermistor.py: Evaluator, TemperatureData.setWeights"]}
{"id": "C96", "title": "Battery voltage example: curve and score", "statement": "The voltage is voc plus three terms with their amplitudes, time constants and offsets as named a1, b1, c1 and so on; it falls with time towards voc. The score is zero exactly if the curve goes through all readings.", "quantifier": "all parameter values within the bounds, all times and data", "why_tests_cant": "Universal over real parameter values and times.", "anchors": ["ade/examples/voc.py: Evaluator"]}
{"id": "C97", "title": "The Goldstein-Price function has a single minimum", "statement": "The function that the C program of the example computes is at least 3 everywhere, and 3 only at (0, -1), which lies within the bounds of the example.", "quantifier": "all arguments", "why_tests_cant": "Universal over all pairs of numbers.", "anchors": ["ade/examples/goldstein-price.c: gp", "ade/examples/goldstein-price.py: GoldSteinPrice_Solver"]}
{"id": "C98", "title": "Each evaluation by an external program gets its own result", "statement": "Each command given to a runner or a pool of runners gets the result that the program computed for its arguments, in whatever order commands, connections and results follow each other; a command is given to a free runner if there is one; shutting down ends the program.", "quantifier": "every sequence of commands, connections, results and shutdowns, every size of the pool", "why_tests_cant": "Universal over interleavings of external events.", "anchors": ["ade/examples/goldstein-price.py: ExecProtocol, Runner, MultiRunner"]}
{"id": "C99", "title": "Readings from a file are in order of time and selected by range", "statement": "The readings of a CSV file, comments left out, are sorted by time; those whose position is in one of the ranges are kept, once each; times are counted from the earliest reading and never decrease, and times and rows of values correspond.", "quantifier": "every file, every list of ranges", "why_tests_cant": "Universal over files and ranges.", "anchors": ["ade/examples/data.py: Data.load, TimeData.parseValues"]}
{"id": "C100", "title": "What all members agree on stays; how far a challenger can go", "statement": "If all members of the population have the same value of a parameter, every later member has it too, and if all members are alike, no other values are ever tried. A challenger's parameter goes beyond the range of the values of the four individuals it is made from by at most F times the width of that range, also when it is reflected at a bound.", "quantifier": "every configuration, evaluation function and execution of a run; every challenge", "why_tests_cant": "Universal over executions.", "anchors": ["ade/de.py: DifferentialEvolution.challenge, crossover", "ade/population.py: ParameterManager.limit"]}
{"id": "C101", "title": "Locks of population members", "statement": "Requests for the locks of different members are granted in the order they were made, never two of them for the same member at the same time, and without deadlock: each is granted once earlier requests have given back what they hold. A request that names a member twice is refused and leaves the locks as they were; a request never takes a lock away from another.", "quantifier": "any number of requests for any members, given back in any order, every interleaving", "why_tests_cant": "Universal over interleavings of requests and releases of any number of users.", "anchors": ["ade/population.py: Population.lock, Population.release"]}
{"id": "C102", "title": "The parameter viewer shows what is asked for", "statement": "pv shows, for a saved population, the figures of the parameters named (all, if none are named) if -r is given, and those of the most correlated pairs if -N is given; it says that nothing was done only if nothing was done.", "quantifier": "every population, selection of names and options", "why_tests_cant": "Universal over populations and command lines.", "anchors": ["ade/scripts/pv.py: main"]}
{"id": "C103", "title": "Extracting the examples never overwrites a file", "statement": "Extraction creates each packaged file whose name begins with a lower-case letter and ends with .py, .c, .txt or .specs unless something with its name is there already, and changes nothing else. Running it again changes nothing; after deleting a file, running it again restores the default file.", "quantifier": "every content of the package and of the subdirectory", "why_tests_cant": "Universal over directory contents.", "anchors": ["ade/scripts/examples.py: extract", "ade/__init__.py: extract_examples"]}
{"id": "C104", "title": "Command-line options", "statement": "Each option declared to an Args object is available by its letter with the value given on the command line, else its default; positional arguments are the items of the object, which is an empty sequence if there are none; every declaration takes effect; the paragraphs of the description appear in order and complete.", "quantifier": "every list of declarations, every command line, every text", "why_tests_cant": "Universal over declarations and command lines.", "anchors": ["ade/args.py: Args"]}
{"id": "C105", "title": "Bounds are respected in spite of rounding", "statement": "In floating-point arithmetic, too, no individual of a run has a parameter outside its bounds: a limited value is within the bounds however the reflected value was rounded, and a value within the bounds is not changed by limiting. A normalized value below one is scaled to a value within the bounds, so that the initial values checked against the constraints are those of the individual.", "quantifier": "floats of any precision, rounding to nearest with any rule for ties, any bounds, any execution of a run with any arithmetic of mutation", "why_tests_cant": "Universal over floats; the rounding cases in question are too rare to be met by sampling.", "anchors": ["ade/population.py: ParameterManager.limit, ParameterManager.fromUnity, Population.setup"]}
{"id": "C106", "title": "An optimization as a whole", "statement": "After a completed setup, at any time of any execution of the run on that population, every member is within the bounds and satisfies the constraints, and the evaluation function is consulted about such values only. The members left by setup are those whose usable scores came first. The best member is at any time at least as good as everything evaluated so far, in setup and in the run.", "quantifier": "every configuration, every order in which evaluations of the setup and of the run end", "why_tests_cant": "Universal over executions of setup and run together.", "anchors": ["ade/population.py: Population.setup", "ade/de.py: DifferentialEvolution.challenge, _run"]}
{"id": "C107", "title": "Every individual has values of its own", "statement": "Whatever is done to the values of one individual, by writing an item, by an evaluation function or a report callback that changes the array it is given, by crossover or by limiting, is not seen in any other individual, and what has been recorded in the history stays as it was recorded. Making a challenger changes none of the individuals it is made from. A copy is independent of its original. An individual keeps the values it was evaluated with, and values it is given are not shared with whoever gave them.", "quantifier": "every sequence of operations, every order, every in-place change", "why_tests_cant": "Aliasing shows only in particular sequences of operations; universal over them.", "anchors": ["ade/individual.py: Individual", "ade/population.py: Population.limit, Population.spawn, Population.setup", "ade/de.py: crossover, challenge", "ade/history.py: History.add"]}
{"id": "C108", "title": "Dimensions of figures", "statement": "Dimensions of the form W or WxL, in pixels, are obeyed for plot windows and for files, whether given to pv, to filePath, or as keyword dims of plot, plotCorrelated or makePlotter. Without a height, a file's height is at most 0.7 of its width and in proportion to rows and columns of subplots.", "quantifier": "every width and height, every arrangement of subplots", "why_tests_cant": "Universal over numbers and over combinations of ways to give them.", "anchors": ["ade/history.py: Analysis._widthHeight, Analysis.filePath, Analysis.makePlotter", "ade/scripts/pv.py: main"]}
{"id": "C109", "title": "At the end of a run the callbacks have been given the best", "statement": "A run begins and ends with a report of the best member and waits until the callbacks are done with it: when the wait is over, each callback has last been called with the values of the best member. While the population is running the wait never ends with a callback in progress, and it does end if callbacks return.", "quantifier": "every execution before the report, any number of callbacks", "why_tests_cant": "Universal over interleavings of reports, callbacks and the wait.", "anchors": ["ade/population.py: Population.waitForReports, Population.report", "ade/report.py: Reporter.waitForCallbacks, Reporter.runCallbacks", "ade/de.py: _run, __call__"]}
{"id": "C110", "title": "Concurrent evolution is the same as evolution with blocking evaluations", "statement": "Evaluating concurrently changes nothing about the operations of differential evolution: between generations the population is the one that results if each challenge is chosen, carried out and ended before the next one is chosen.", "quantifier": "every population, every way of choosing base and others from the population, every interleaving of the challenges of a generation", "why_tests_cant": "The difference depends on which evaluations are still in progress when an index is chosen; universal over interleavings.", "anchors": ["ade/de.py: DifferentialEvolution, challenge, _run", "ade/population.py: Population.sample"]}
{"id": "C111", "title": "Generations do not overlap, and a run ends", "statement": "A challenge is issued only when all challenges of earlier generations have returned. In each generation every individual is the target of exactly one challenge, in order. Between generations no challenge is in progress and no lock is held or waited for. After a bounded number of steps a run ends, whatever is in progress when it is shut down or a challenge fails, and after its end no challenge is issued and no member changes.", "quantifier": "every configuration, every interleaving of loop, challenges, reports, shutdown and failures", "why_tests_cant": "Universal over interleavings of loop and challenges; that something can always go on is not observable in single runs.", "anchors": ["ade/de.py: DifferentialEvolution._run, __call__, challenge, shutdown", "ade/population.py: Population.waitForReports"]}
{"id": "C112", "title": "Every documented option of a run has its effect", "statement": "Each option documented for DifferentialEvolution is consulted during a run: two runs can only be conducted alike if they agree on the value of each option.", "quantifier": "every combination of keywords and class-wide defaults", "why_tests_cant": "That a keyword is accepted and then never consulted does not show in any result; universal over values.", "anchors": ["ade/de.py: DifferentialEvolution.__init__, _run, challenge, __call__"]}
{"id": "C113", "title": "A population is used like a sequence of individuals", "statement": "Indexing counts from the front, or with negative numbers from the back. Assigning to an index replaces exactly the individual there, and tells the history which one went and which one came; an assignment that raises changes nothing. Every member is `in` the population, and so is exactly what has the same score and values as a member. `individuals` returns the list of the individuals at the given indices.", "quantifier": "every population, every integer index, every history", "why_tests_cant": "Universal over indices, populations and states of the history.", "anchors": ["ade/population.py: Population.__getitem__, __setitem__, __contains__, individuals", "ade/history.py: History.notInPop, add"]}
{"id": "C114", "title": "One run after another on the same population", "statement": "A population can be evolved further after a run on it has ended: calling the DifferentialEvolution object again, or making another object for the population, begins a run with the members the first run has left. That run is not affected by the first one, whatever is still in progress of it: its result is that of its own challenges one after the other, and no member gets worse.", "quantifier": "every population, every state in which the first run was ended, every interleaving of the challenges of both", "why_tests_cant": "The challenges of the first run that are still in progress interleave with those of the second one; universal over interleavings.", "anchors": ["ade/de.py: DifferentialEvolution.__call__, _run, challenge, shutdown", "ade/population.py: Population.lock, Population.release"]}
{"id": "C115", "title": "Shutting down the runner of an example repeatedly", "statement": "However often and whenever shutdown of the thermistor and the battery example is called, their process queue is shut down once. Until then every evaluation with values is given to the queue, in order; once it is shut down, no evaluation is.", "quantifier": "every sequence of calls of shutdown and evaluate, and every moment at which a shutdown of the queue ends", "why_tests_cant": "Calls overlap in time with shutdowns that take a while; universal over their interleavings.", "anchors": ["ade/examples/thermistor.py: Runner.shutdown, Runner.evaluate", "ade/examples/voc.py: Runner.shutdown, Runner.evaluate"]}
{"id": "C116", "title": "Output of an external program arriving in pieces", "statement": "A command to an external program gets the number on the line that the program writes for it, however the output of the program is cut into pieces on its way; blank lines do not matter.", "quantifier": "every program that answers each input by one line, every way of cutting its output into pieces, every sequence of calls", "why_tests_cant": "How output is cut into pieces depends on buffers and timing; universal over texts and over the places of the cuts.", "anchors": ["ade/examples/goldstein-price.py: ExecProtocol.outReceived, ExecProtocol.cmd, Runner.__call__"]}
{"id": "C117", "title": "Shutting down the pool of external programs", "statement": "Shutting down the pool shuts down each of its runners, each once, also if it is shut down in other ways besides; no command is given to any program afterwards. Every call made afterwards and every further shutdown of the pool ends.", "quantifier": "every number of runners, every sequence of calls and shutdowns of the pool and of single runners", "why_tests_cant": "Universal over numbers of runners and over sequences of calls.", "anchors": ["ade/examples/goldstein-price.py: MultiRunner.shutdown, MultiRunner.__call__, Runner.shutdown"]}
{"id": "C118", "title": "Resuming a saved population again and again", "statement": "A population saved with its history and loaded again can go on: the history protects the records of the current members only, and every individual given to it is recorded, however often the population was saved and loaded, by whichever processes, with or without new bounds.", "quantifier": "every capacity, every population size, every sequence of uses, savings and loadings, every hash function per process and all limits", "why_tests_cant": "Python chooses the hash function of bytes anew for each process; tests run in one process and load a population once at most.", "anchors": ["ade/population.py: Population.load, Population.save, Population.__setitem__", "ade/individual.py: Individual.__hash__", "ade/history.py: History.__getstate__, History.__setstate__, History.notInPop"]}
{"id": "C119", "title": "One pair of bounds for each parameter", "statement": "Names and bounds are accepted only if there is one pair of bounds, lower first, for each name, both when a population is created and when it is loaded with new bounds. Values with one number per parameter can always be limited and scaled, each number by the bounds of its own parameter.", "quantifier": "all lists of names, bounds and values of all lengths, all populations", "why_tests_cant": "numpy repeats arrays of length one silently; universal over lengths and values.", "anchors": ["ade/population.py: ParameterManager.__init__, ParameterManager.setup, ParameterManager.limit, ParameterManager.fromUnity, ParameterManager.toUnity, Population.load, Population.limit", "ade/individual.py: Individual.update"]}
{"id": "C120", "title": "The summary of a population is true", "statement": "The first line of the printed population gives the number of its members, the least and the greatest of their scores, the mean of their latest evaluation times, and the number of members shown in the table below it; these are the best members, in order. A population without members is called empty.", "quantifier": "all populations, scores including infinite ones and NaN, all histories of evaluations", "why_tests_cant": "The tests look at one printed population; the order of members with NaN and the sources of the numbers are not tested.", "anchors": ["ade/population.py: Population.__repr__, Population.evalTimes, Population.iSorted", "ade/individual.py: Individual.evaluate, Individual.copy"]}
{"id": "C121", "title": "The log grepper as a whole", "statement": "lgg takes its first argument for the log file if there is a dot in it, and ~/pfinder.log otherwise; without that file it prints nothing but an error. For a log of printed individuals, with other lines in between, it prints a table with a column for each parameter that matches one of the patterns, in order of the names, and rows that say about some of the individuals what was logged: SSE, values and stars; the worse ones come first, none has more than twice the lowest SSE, there are at most forty, and the best one comes last if the log has at most forty. Without patterns the columns are the parameters with stars in the four best entries (for entries with different scores). If the file cannot be read to its end, has no entry, or an entry lacks a parameter asked for, there is no table.", "quantifier": "all command lines, all logs, all numbers of individuals and parameters, any order numpy gives to equal scores", "why_tests_cant": "The tests of the script look at parts of it with one log file; what is printed in the end for what was logged is the composition of all parts.", "anchors": ["ade/scripts/lgg.py: main, Grepper.__init__, Grepper.__call__, Grepper.load, RowManager.trim", "ade/individual.py: Individual.__repr__"]}
{"id": "C122", "title": "Callbacks can be registered at any time", "statement": "Every callable given to addCallback is called, with its extra arguments, for each individual reported from then on and for the individual whose callbacks are running at that time, after the callbacks registered before it; it is not called for individuals dealt with earlier. An object that is not callable is refused and changes nothing.", "quantifier": "all interleavings of registrations, reports, returning callbacks, complaints, failures and aborts", "why_tests_cant": "The tests register callbacks before anything is reported; registration during a run of callbacks depends on the interleaving.", "anchors": ["ade/report.py: Reporter.addCallback, Reporter.runCallbacks", "ade/population.py: Population.addCallback"]}
{"id": "C123", "title": "The example programs do what their options say, and end", "statement": "The thermistor and the battery program set up a population of the size asked for, in the way asked for, perform differential evolution with the crossover rate, range of F, number of generations, base, adaptive mode and the other things asked for, save the population unless told not to, and end, whether or not something goes wrong.", "quantifier": "all option values, all texts for F, availability of the data, aborted and failing runs", "why_tests_cant": "There are no tests of the example programs; the ways in which they fail depend on options and environment.", "anchors": ["ade/examples/thermistor.py: Runner.__call__, Runner.run, main", "ade/examples/voc.py: Runner.__call__, Runner.run, main", "ade/de.py: DifferentialEvolution.__init__, FManager.__init__"]}
{"id": "C124", "title": "The constraints in force are those given last", "statement": "At any time a population enforces exactly the constraints that it was given last, by its constructor or by setConstraints, whatever has been checked, done with other populations, or done by the caller with lists that they gave; functions appended to a Constraints object are enforced along with its registered methods; a population given no constraints has none.", "quantifier": "all sequences of constructing populations with functions, lists, generators or Constraints objects, of setConstraints, of appending and of checking", "why_tests_cant": "Universal over sequences of operations on shared mutable objects; tests construct one population with one function.", "anchors": ["ade/population.py: ParameterManager.__init__, setConstraints, passesConstraints", "ade/population.py: Population.__init__, setConstraints", "ade/constraints.py: Constraints"]}
{"id": "C125", "title": "The line in an X-Y plot is the best fit", "statement": "The line drawn and printed for two parameters is the one from which the better half of the records deviates least (squares, with the documented weights of good scores), and the only such line; records that lie on a line give that line; neither the order of the records nor the units of parameters or scores matter; the printed equation says the same.", "quantifier": "all records, scores, units and lines", "why_tests_cant": "Universal over data sets and competing lines; a test can compare one fit with one expected line.", "anchors": ["ade/history.py: Analysis.lineFit, plotXY, prettyLine"]}
{"id": "C126", "title": "Correlation coefficients", "statement": "The number shown for two parameters is their correlation coefficient: between -1 and 1, these exactly for records on a falling or rising line, the same with the parameters exchanged or in other units; the pairs are shown with the most correlated first, each once.", "quantifier": "all records and numbers of parameters", "why_tests_cant": "Universal over data sets; a test has one set of records, without parameters that never change.", "anchors": ["ade/history.py: Analysis.corr, correlator, plotCorrelated"]}
{"id": "C127", "title": "The Goldstein-Price program and its pipes", "statement": "The external program of the Goldstein-Price example answers each pair of numbers that arrives, in whatever pieces, by the function's value, in the order of the pairs, until a value is infinite, which ends it; each line its protocol receives is the value for the earliest command not answered; it ends with its input and reports texts that are not numbers; without it, or when something fails, the example ends with a message; it ends when the parent has gone.", "quantifier": "all sequences of pairs, ways in which they arrive in pieces, passes of the program's loop, commands and lines received, for any arithmetic", "why_tests_cant": "Quantifies over infinitely many inputs and interleavings of two processes; that something is never printed or goes on for ever cannot be observed by a test.", "anchors": ["ade/examples/goldstein-price.c: gp, main", "ade/examples/goldstein-price.py: ExecProtocol.cmd, outReceived, Solver.__call__, main"]}
{"id": "C128", "title": "Numbers in the log", "statement": "Values and scores printed in reports and in the final table are text that the log grepper reads, are read back as the nearest number with the digits printed, in the same order, exactly if they have no more digits, and print alike again; texts fit in the columns of the table, which stay aligned; the best individual, printed twice, is shown once by the grepper; and entries whose scores are within the grepper's ratio are shown also when scores are small.", "quantifier": "all finite values and scores, all numbers of digits, all lists of values of the individual, all tables", "why_tests_cant": "Rounding errors and widths concern infinitely many numbers of all magnitudes; a test can only print a few of them.", "anchors": ["ade/population.py: ParameterManager.stringValue, Population.__repr__", "ade/individual.py: Individual.__repr__", "ade/scripts/lgg.py: Grepper.filerator, RowManager.trim"]}
{"id": "C129", "title": "The log grepper's table tells the individuals of the run", "statement": "From individuals with their exact scores and values to the printed table: if a log has individuals as ade prints them, other lines in between, and possibly the final population, then `lgg` with patterns prints a table whose rows tell individuals of that run, each score to within four decimals and five digits, each value with a relative error below 0.006%, and stars exactly for values in the outer twentieths of the range; the rows are ordered by score up to the accuracy of the log, none has a score of more than about twice the lowest one, and the best individual is in the last row.", "quantifier": "all parameters, individuals, values, scores, other lines of the log, patterns and orders of equal scores", "why_tests_cant": "The claim spans printing, wrapping, parsing, selection and printing again for all numbers; a test follows a few numbers through it.", "anchors": ["ade/individual.py: Individual.__repr__", "ade/population.py: Population.__repr__, ParameterManager.stringValue", "ade/scripts/lgg.py: Grepper, RowManager.trim, main"]}
{"id": "C130", "title": "The history keeps scores and values to single precision", "statement": "A score or value put into the history is kept as the nearest number of the format float32: to one part in 2^24 (below 6e-8), to 2^-150 if smaller than 2^-126; numbers of that format are kept exactly; exactly those from 2^128 - 2^103 (3.4e38) on become infinite.  Hence a history into which no more individuals than its capacity were put, with scores and values below that limit, has exactly one record of each telling its score and values that accurately, and the records are in the order of the true scores up to that accuracy.", "quantifier": "all scores and values, all histories of a normal run, all capacities", "why_tests_cant": "Rounding concerns every number of every binade; a test looks at a few numbers, most of which are kept exactly.", "anchors": ["ade/history.py: History.__init__, History.add"]}
{"id": "C131", "title": "A full history makes room by removing its worst record", "statement": "When the roster of a history is full, adding an individual removes the record with the highest score that is not of a current member of the population, as the documentation of `N_max` says.", "quantifier": "all histories, individuals, scores and values, all random draws of the finder", "why_tests_cant": "The claim is about every full history; which record goes depends on all pairwise differences and on row numbers.", "anchors": ["ade/history.py: History (N_max), History.add, ClosestPairFinder.calcerator"]}
{"id": "C132", "title": "The mutation range is sound in spite of rounding", "statement": "With floating-point products of any precision of at least eight bits and any rule for ties: after any sequence of scale-ups and scale-downs the mutation range is a proper positive range within the original limits and, if it started above the critical value, above it; each factor drawn lies in the range; repeated scale-downs reach a state in which the limit is reported; repeated scale-ups restore exactly the range given by the user.", "quantifier": "all precisions, roundings, initial ranges, sequences of requests and random numbers below one", "why_tests_cant": "Rounding errors add up over arbitrarily many generations; tests see a few sequences in one precision.", "anchors": ["ade/de.py: FManager.down, FManager.up, FManager.get"]}
{"id": "C133", "title": "Settings of randomBase outside 0 to 1 are rejected", "statement": "`Population.sample` raises a ValueError for every number given as `randomBase` that is not between 0.0 and 1.0, as its message says, and raises nothing for one that is while an allowed member exists.", "quantifier": "all populations, excluded indices, numbers and random draws", "why_tests_cant": "What a negative setting does depends on the draw: most draws give some index, so a test that samples sees no error.", "anchors": ["ade/population.py: Population.sample, ProbabilitySampler.__call__"]}
{"id": "C134", "title": "A biased choice returns an allowed member in spite of rounding", "statement": "With `randomBase` between 0.0 and 1.0 in double precision, a request for one index returns that of an allowed member for every result of the random number generator, with every operation of the sampler rounded; with a setting of at most 0.5 it is among the first ceil(2*randomBase*n) candidates.", "quantifier": "all populations below 2^53 members, excluded indices, settings, results of the generator, rules for ties and roundings of the square root", "why_tests_cant": "The draws that go wrong have a probability of about 2^-80; no test would meet them.", "anchors": ["ade/population.py: ProbabilitySampler.trapz, ProbabilitySampler.__call__, Population.sample"]}
{"id": "C135", "title": "How likely the mutation range is left alone", "statement": "At the end of every generation but the first, the chance that the status quo is kept depends only on the generation's score as a share of the target (the target fraction times the size of the population): it rises with the score and is one from the target on; the weights of improvement ratios and the examples are as documented; with the same improvements the chance is no lower in a smaller population; in small populations the status quo is sometimes kept even without improvements.", "quantifier": "all target fractions, population sizes, earlier generations, improvement ratios and random numbers", "why_tests_cant": "The claim is about probabilities over all sequences of generations; a test sees single decisions.", "anchors": ["ade/population.py: Population.__init__ (targetFraction), Population.replacement, Population._keepStatusQuo"]}
{"id": "C136", "title": "A run whose challengers keep failing is stopped soon", "statement": "Unless run to the bitter end, a run that has too few successful challenges is stopped: from any generation on, after a number of generations without success that the settings fix in advance (44 with the default settings), whatever happened before; and it is not stopped before that many generations without success in a row as it was set to hang around, and one more.", "quantifier": "all runs, initial ranges, settings of dwellByGrave, environments and starting generations", "why_tests_cant": "The claim bounds all runs from any reachable state of the mutation range; a test follows single runs.", "anchors": ["ade/de.py: DifferentialEvolution._run, DifferentialEvolution (documentation of bitterEnd, dwellByGrave), FManager.down"]}
{"id": "C137", "title": "What the report of a limit of the mutation range means", "statement": "The mutation range is reported limited after a request to scale down exactly if that request did not reduce it; otherwise the request lowers exactly one end of it. A single value shrinks slower than the lower end of a range. Without adaptation the range still reports when its hidden value has reached the limit.", "quantifier": "all usable settings and sequences of requests", "why_tests_cant": "The equivalence is about every reachable state of the range, and the comparison about every number of requests.", "anchors": ["ade/de.py: FManager (class documentation, get, down, up)"]}
{"id": "C138", "title": "Failed evaluations are not counted as successes", "statement": "A challenge whose challenger gets no usable score (none, an infinite one, or one that is not a number) counts as lost, like any challenge lost by score: it adds nothing to the score of its generation, so a run in which nothing but such evaluations happen is stopped.", "quantifier": "all populations, earlier reports, sequences of generations and random numbers", "why_tests_cant": "The effect on the end of a run shows only over whole runs of failing evaluations.", "anchors": ["ade/report.py: Reporter.msgRatio, Reporter.__call__; ade/population.py: Population.report, Population.replacement; ade/de.py: DifferentialEvolution._run"]}
{"id": "C139", "title": "The optimized search for a free row does what the loop it replaced did", "statement": "The row of the history in which a new record is written is the one found by the loop given in the documentation of `kkr`; that is never a row in use.", "quantifier": "all sets of rows in use and orders of their scores", "why_tests_cant": "The rows in use are the result of whole sequences of additions and removals; their arrangements cannot be enumerated.", "anchors": ["ade/history.py: History.kkr, History.add, History.purge"]}
{"id": "C140", "title": "Which pairs of records are examined for the eviction", "statement": "With up to 142 eligible records all pairs are examined to find the closest one; with more, 10000 random ones, independent of each other and each pair of separate records as likely as any other, so that a given pair is missed with the chance ((M-1)/M)^10000 where M = N(N-1)/2. The sampling ends, in the mean with a round of draws.", "quantifier": "all sets of eligible records and all sequences of random draws", "why_tests_cant": "Chances are statements about all sequences of random draws; a test sees a few.", "anchors": ["ade/history.py: ClosestPairFinder.__call__, ClosestPairFinder.calcerator, ClosestPairFinder.pairs_sampled, ClosestPairFinder.pairs_all"]}
{"id": "C141", "title": "Comments in specs files are ignored", "statement": "Reading a specs file gives the same result, or the same error, as reading it with its comments removed; a comment is a '#' and what follows it on the line.", "quantifier": "all files and comments", "why_tests_cant": "Comments may stand anywhere in any file.", "anchors": ["ade/specs.py: SpecsLoader.read"]}
{"id": "C142", "title": "The score of a member is the score of its values", "statement": "The score of each member is what the evaluation function returned for the member's values: after setup, at any time of any run, and after resuming from a file.", "quantifier": "all evaluation functions, all configurations, all executions of setup and run, all saved populations and new bounds", "why_tests_cant": "Which members survive depends on the draws and on the order in which evaluations end; a score that is not that of the values shows only if the values are evaluated again.", "anchors": ["ade/population.py: Population.setup, Population.load, Population.limit", "ade/individual.py: Individual.evaluate", "ade/de.py: DifferentialEvolution.challenge"]}
{"id": "C143", "title": "An exception in a constraint ends the run and leaves the population usable", "statement": "If a constraint function raises an exception during a run, the run ends without changing any member afterwards, and another run can be made with the same population.", "quantifier": "all runs, all interleavings of challenges, any challenge failing at any moment, any number of acts of a second run", "why_tests_cant": "What a failed challenge leaves behind shows in a second run only, as the absence of progress, which no test can observe in finite time.", "anchors": ["ade/de.py: DifferentialEvolution.challenge, DifferentialEvolution._run", "ade/population.py: Population.lock, Population.release, ParameterManager.passesConstraints"]}
{"id": "C144", "title": "The Enter key stops everything", "statement": "Once the Enter key has been pressed or abortNow called, and the reactor has made the calls waiting for it, everything the program has made, before or since, is stopped: evaluations of its populations are given None, setups are refused, and calls of differential evolution lead to no challenges. Populations and runs are stopped in the order in which they were made.", "quantifier": "all programs making, loading, setting up and running any number of populations, in any order, with key presses at any moments", "why_tests_cant": "Whether an object is reached depends on the whole program before the key press; tests have one population and one run.", "anchors": ["ade/abort.py: callOnAbort, Keyboard.dataReceived, restart", "ade/population.py: Population.__init__, Population.load, Population.abort, Population.setup, Population.evalFunc", "ade/de.py: DifferentialEvolution.__init__, DifferentialEvolution.shutdown, DifferentialEvolution.__call__"]}
{"id": "C145", "title": "Progress characters of reports", "statement": "A report of one individual prints one character: * for the first, ! for one with a lower score than the best so far, which it becomes, and otherwise a digit for how many times worse it is than the best (0 within two percent, the nearest whole number, at most 9), or # if its evaluation produced an error. A report of a challenger and its target prints X or the digit of the ratio that it returns, followed by + exactly if the challenger is a new best one. With progress characters switched off nothing is printed and everything else is the same.", "quantifier": "all states of a reporter, all pairs of individuals, all scores", "why_tests_cant": "The characters depend on the history of best scores; tests look at the ratios only.", "anchors": ["ade/report.py:372-465 Reporter.__call__, Reporter.progressChar, Reporter.newBest", "ade/report.py: Reporter.msgRatio"]}
{"id": "C146", "title": "The plots of the examples show what is scored", "statement": "For each new best combination the battery example and the thermistor example plot all readings and the curve with the values of that combination, extrapolated as documented, and the curve is the one that is scored: a hundred times the sum of the squares of the residuals plotted is the score of the battery example, and the score of the thermistor example is zero exactly if all curves plotted go through the readings that have a weight. The curves fall; that of the battery stays above the line drawn at the estimated voltage.", "quantifier": "all readings, all values", "why_tests_cant": "The tests make no plots; what is drawn and what is scored are computed in different places.", "anchors": ["ade/examples/voc.py:107-144 Reporter.__call__", "ade/examples/thermistor.py:135-159 Reporter.__call__"]}
{"id": "C147", "title": "The ratio of a report in floating-point arithmetic", "statement": "With quotients and differences rounded to doubles, the ratio of a report is missing exactly when the target is strictly better, and never smaller for a smaller positive score of the challenger. It is zero if the improvement stays below the significant one (minDiff) by 2^-52 of the old score, and not zero if it exceeds it by that margin; with the default of two percent, an improvement of two percent or more never has the ratio zero. A ratio that is not zero is a whole number, at least one, nearest to the exact quotient of the scores unless the quotient is within one part in 2^53 of the middle between two whole numbers.", "quantifier": "for all positive finite scores, all values of minDiff up to one half and all roundings to nearest with 53 bits (without overflow and underflow)", "why_tests_cant": "The sets of scores where rounding could change the outcome are thin and lie next to thresholds; tests do not hit them and cannot show that there are no others.", "anchors": ["ade/report.py:101-115", "ade/report.py:256-350"]}
{"id": "C148", "title": "Messages show their arguments as they are", "statement": "A message is written as one line: the blank lines, spaces and rows of hyphens asked for before it, its text with each argument in the place of its field (braces and hyphens in the arguments included, escaped braces in the text shown as braces), and the blank lines and rows of hyphens asked for after it. A call with fewer arguments than fields raises. A text without arguments is written as it is, whatever is in it.", "quantifier": "for all texts, all arguments and any formatting of single arguments, in any state of the messenger", "why_tests_cant": "Texts and arguments are arbitrary strings, including user-defined representations of parameters and exceptions; whether a trailing argument is shown in the text or is a request depends on counting fields in the text.", "anchors": ["ade/util.py:40-48", "ade/util.py:292-362"]}
{"id": "C149", "title": "Whole numbers and floats are alike as values of an individual", "statement": "An individual made of a list of numbers has the values given, whether they were given as whole numbers or as floats, and so has a copy of it. A value assigned to one of its items is the one read from it afterwards, and the other items keep theirs. Sums, differences, multiples, limiting and challengers have the same values as if all numbers were floats. Two individuals with equal values and scores are hashed alike.", "quantifier": "for all lists of numbers of either kind, all items and values assigned, all bounds, draws and mutation coefficients of either kind", "why_tests_cant": "The kind of a numpy array is decided by all the numbers in a list at once and changes what later assignments do; tests use floats throughout.", "anchors": ["ade/individual.py:66-75", "ade/individual.py:137-191", "ade/individual.py:224-266", "ade/de.py:444-462", "ade/de.py:528-536", "ade/population.py:241-251"]}
{"id": "C150", "title": "Any name can be given to a specification", "statement": "Loading a specs file gives an object with the specifications in the file, whatever their names, and reports the number of lines; looking up a name gives the specification of that name, and an empty dict if there is none. A file that does not exist is reported by an OSError.", "quantifier": "for all well-formed documents, all names and all lookups", "why_tests_cant": "The names are chosen by the writer of the file, and share the name space of the object's methods; a test with other names passes.", "anchors": ["ade/specs.py:65-156", "ade/specs.py:211-286"]}
{"id": "C151", "title": "The items of an individual", "statement": "The values of an individual are read by number, counted from the front or from the back, and by the name of the parameter; they are written by number. A value written is the one read with every index for the same parameter, and the other values stay. An index that stands for no parameter raises an exception and changes nothing. Iterating gives the values in the order of the parameters.", "quantifier": "for all names of parameters that are distinct, all values and all indices", "why_tests_cant": "Indices come from user code: negative ones, names, integers that numpy computed; tests use a few plain ones.", "anchors": ["ade/individual.py:153-173"]}
{"id": "C152", "title": "The ventilation fan of the usage example", "statement": "The program that shows what the thermistor curves are used for switches the fan off at the beginning. After that the fan is switched to the other state only, no sooner than the minimum transition time after the last switching, and the state logged is the one last written to the pin. It is switched on only if the temperature inside is not below INSIDE_MIN and above the one outside by more than the difference required, which is TEMPDIFF_T0 at T0, falls in a line to zero at INSIDE_MAX and stays there. With constant temperatures it is switched at most once. The fan is never asked for below INSIDE_MIN, nor if it is hotter outside than inside; from INSIDE_MAX on it is asked for unless the outside is warmer. A sensor offline switches it off after the minimum time.", "quantifier": "for all settings that make sense, all sequences of readings and failures of sensors, all times, also with the clock set back", "why_tests_cant": "Universal over sequences of temperatures and times; the program needs the hardware.", "anchors": ["doc/ade-thermistor-usage.py:18-39, 174-255"]}
{"id": "C153", "title": "The temperatures of the usage example", "statement": "The temperatures given by the program that shows what the thermistor curves are used for are the means, channel by channel, of the temperatures of successive groups of N_READINGS readings; a reading in which a sensor had no value counts for nothing, every other one is in exactly one group. The voltages are smoothed first by a moving average settled to the first of them, whose distance from a constant input falls by 1/e within the time constant. A higher voltage, which is a lower resistance of the thermistor, is a higher temperature.", "quantifier": "for all sequences of readings with any of them missing, all positive parameters of the curves, every number of readings per group", "why_tests_cant": "Universal over sequences of readings; real-valued filter and logarithm; the program needs the hardware.", "anchors": ["doc/ade-thermistor-usage.py:40-43, 56-77, 87-90, 123-172"]}
{"id": "C154", "title": "The scores of the Goldstein-Price program are accurate", "statement": "Within the bounds of the example, the value that the program computes in single precision differs from the value of the Goldstein-Price function by less than half a percent, so that of two points whose values differ by one percent the better one gets the lower score. At the minimum (0, -1) the value is exactly 3, and no point has a lower one.", "quantifier": "for all pairs of numbers within the bounds", "why_tests_cant": "Universal over arguments; the rounding errors of 29 operations, most of them with cancellation, add up differently everywhere.", "anchors": ["ade/examples/goldstein-price.c: gp", "ade/examples/goldstein-price.py:250"]}
{"id": "C155", "title": "Relations between parameters are judged to within rounding", "statement": "In floating-point arithmetic a relations checker accepts parameters whose deviations from all relations are below the maxima by more than the rounding errors, and rejects those where a deviation is above the maximum by more than that: by 2^-51 times the sum of the sizes of slope times first parameter, intercept and second parameter. With a maximum of zero it accepts exactly the value computed from the first parameter. A larger maximum never turns acceptance into rejection.", "quantifier": "for all parameter dicts and relations, all roundings to nearest with 53 bits", "why_tests_cant": "Universal over parameters and relations; a test only sees a few roundings.", "anchors": ["ade/constraints.py: RelationsChecker.__call__"]}
{"id": "C156", "title": "Score-ratio queries in single precision", "statement": "The history keeps scores in single precision and computes ratios of scores in it. Provided the best score is positive, a query with a maximum ratio still leaves out no record whose score is at most that ratio times the best score, and returns none whose score is above that by more than one part in 2^22. With a ratio of one it returns exactly the records that have the best score.", "quantifier": "for all histories with a positive best score, all memberships and ratios", "why_tests_cant": "Universal over scores and ratios; whether a ratio is rounded up or down depends on all bits of the scores.", "anchors": ["ade/history.py: Analysis.value_vs_SSE"]}
{"id": "C157", "title": "Scaling to the unit cube is accurate in spite of rounding", "statement": "In floating-point arithmetic, a value within the bounds of a parameter is scaled to a number from 0 to 1, exactly 0 for the lower bound only and exactly 1 for the upper bound; scaling keeps the order of values, is accurate to one part in 2^51, and scaling back gives the value to within a few roundings. In the log, a value at the lower bound always has one star and one at the upper bound two stars, and otherwise the stars are for the lowest and highest 5 percent of the range, to within one part in 2^50.", "quantifier": "for all bounds and values, all roundings to nearest with 53 bits", "why_tests_cant": "Universal over bounds and values; a test only sees a few roundings.", "anchors": ["ade/population.py: ParameterManager.toUnity, fromUnity, stringValue"]}
{"id": "C158", "title": "Challengers are as documented in spite of rounding", "statement": "In floating-point arithmetic, each parameter of a challenger lies within its bounds and is either exactly the target's value or the documented base + F*(r0 - r1), limited to the bounds, to within one part in 2^48 of the larger bound. A parameter in which the two other members agree is taken over exactly. Expressing a parameter in units that are a power of two apart gives exactly the same challengers.", "quantifier": "for all bounds, members, random draws and crossover rates, mutation factors up to 2, all roundings to nearest with 53 bits", "why_tests_cant": "Universal over members, draws and roundings; a test only sees a few challengers.", "anchors": ["ade/de.py: DifferentialEvolution.challenge, crossover", "ade/individual.py: Individual.__sub__, __add__, __mul__", "ade/population.py: ParameterManager.limit"]}
{"id": "C159", "title": "The records evicted from a full history are the closest in spite of rounding", "statement": "In floating-point arithmetic, for n parameters, the difference of two records is the documented one (scaled squares added up, over the mean score, less for a record that never was in the population) to within n + 8 roundings, whatever the order in which the columns are added; it is zero exactly for records with the same score and values. So the record evicted belongs to a pair of which, to within one part in 2^53 times 2n + 16, no examined pair is closer, and if two examined records are the same, it has a twin.", "quantifier": "for all records with positive scores, scalings, penalties, orders of summation, random pairs and roundings to nearest with 53 bits", "why_tests_cant": "Universal over records and roundings; a test only sees a few histories.", "anchors": ["ade/history.py: ClosestPairFinder.calcerator"]}
{"id": "C160", "title": "The status quo decision is as documented in spite of rounding", "statement": "In floating-point arithmetic, the score of a generation with m replacements is the sum of the documented weights (0.1 for an improvement ratio of 0, r - 0.5 for a ratio r) to within m + 1 roundings, and exactly that sum if no ratio is 0. The status quo is then kept or not as exact arithmetic would decide for the same random number, unless that number is within (m + 5)/2^52 of the chance of keeping it, a chance that grows with the score from 0 for no replacement to 1 for the target score.", "quantifier": "for all sequences of improvement ratios, targets and random numbers, all roundings to nearest with 53 bits, every pi and sine right to one part in 2^52", "why_tests_cant": "Universal over generations and roundings; the decision is random.", "anchors": ["ade/population.py: Population.replacement, _keepStatusQuo"]}
{"id": "C161", "title": "Chances are as documented with the random numbers of the machine", "statement": "The machine's uniform random numbers are the multiples of 2^-53 below 1, all equally likely. With them, a crossover of n parameters takes the forced parameter from the mutant, and each other one independently with one and the same chance, which is CR or more by at most 2^-53; a CR of 1 gives the mutant unchanged. The mutation factor is below any x of its range with a chance of (x - lo)/(hi - lo) to within (4 hi/(hi - lo) + 1)/2^53. After a generation with m replacements the status quo is kept with the documented chance to within (2 m + 11)/2^53.", "quantifier": "for all vectors and crossover rates from 0 to 1, mutation ranges, sequences of improvement ratios and targets; all roundings to nearest with 53 bits", "why_tests_cant": "Statements about all 2^53 results of each random number, and about chances too small to be seen by sampling.", "anchors": ["ade/de.py: DifferentialEvolution.crossover, FManager.get", "ade/population.py: Population._keepStatusQuo"]}
{"id": "C162", "title": "Biased choices have the documented chances also in floating-point arithmetic", "statement": "With the machine's rounded arithmetic and its random numbers (multiples of 2^-53 below 1, all equally likely), a randomBase between 0 and 1 (at most 1 - 2^-26) lets one of the best m of n candidates be chosen in a share of all cases that differs from the area of the half-trapezoid distribution from 0 to m/n by at most 24/2^53. The share of each candidate differs from its probability with exact real numbers by at most 48/2^53, and so does the share of each individual in the results of sample, among those not excluded.", "quantifier": "for all lists of fewer than 2^53 distinct candidates, all biases from 0 to 1 - 2^-26, all ranks, every rounding to nearest with 53 bits and correctly rounded square root", "why_tests_cant": "A statement about all 2^106 pairs of random numbers, with errors far too small to be seen by sampling.", "anchors": ["ade/population.py: ProbabilitySampler.__call__, trapz", "ade/population.py: Population.sample"]}
{"id": "C163", "title": "Wide and infinite bounds", "statement": "A population accepts any bounds. Limiting a value that is not NaN gives a number within finite bounds, and with an infinite upper bound one that respects the lower bound. Whatever the bounds, the values of a parameter that are proposed for evaluation, at first and by challengers, are numbers within the bounds.", "quantifier": "for all pairs of bounds, finite or infinite, all random numbers of the setup, all sequences of challenges with any mutation factors from 0 to 2 and any outcomes; every rounding to nearest with 53 bits, with overflow at any number", "why_tests_cant": "The failures depend on the size of the bounds and on overflow in intermediate results; no finite set of bounds and runs covers them.", "anchors": ["ade/population.py: ParameterManager.setup, fromUnity, limit", "ade/population.py: Population.setup", "ade/de.py: DifferentialEvolution.challenge"]}
{"id": "C164", "title": "The weights of the line fit in single precision", "statement": "The straight line in a plot of two parameters is fitted with one weight per record, computed in single precision. The best record has weight exactly 1. Every weight is a number from 0 to 1, a record with a higher score has no higher weight, and the weight differs from 2*SSE_best/(SSE + SSE_best) by less than one part in four million, so that no record is left without influence by rounding.", "quantifier": "for all lists of non-negative scores of any length, with float32 arithmetic including overflow and gradual underflow", "why_tests_cant": "The statement is about every pair of float32 scores; the failures are at the ends of the range.", "anchors": ["ade/history.py: Analysis.lineFit"]}
{"id": "C165", "title": "The help text of an option tells its default value", "statement": "The help text of a command line option that takes a value is the text given to Args, with {} replaced by the option's letter and the default value in square brackets behind it. If the text has the word \"default\" in it in any case, nothing is put behind it. Whatever the text, the result tells the default in brackets at its end or has that word in it. A text with more than one {} is refused with an exception.", "quantifier": "for all texts, default values and option letters; for the exact form, all texts whose only curly brackets are one {}", "why_tests_cant": "The result depends on where brackets and the word occur in a text, and on the letter that is put in before the word is looked for; texts are unbounded.", "anchors": ["ade/args.py: Args.addDefault"]}
{"id": "C166", "title": "Marker groups by score range with rounding", "statement": "In a plot of two parameters by score range, every record with a score below the 70% boundary is drawn with exactly one marker, and no other record is drawn, whatever rounding does to the boundaries. A larger marker means a lower score. The boundaries differ from the exact ones by at most a millionth of the highest score. The best record has the largest marker.", "quantifier": "for all lists of scored records in ascending order, all roundings of the four operations that keep order and zero and have a relative error of at most 2^-23 (float32, float64 and mixtures)", "why_tests_cant": "The effects of rounding show only for particular scores near a boundary, and depend on the version of NumPy.", "anchors": ["ade/history.py: Analysis.Kf12, plotXY"]}
{"id": "C167", "title": "Marker groups by rank with rounding", "statement": "In a plot of two parameters by rank (the default), every record with a rank below 70% of the number of records is drawn, and none with a rank above 70% is, although the places are computed with floats. With more than twenty records none is drawn more than twice. Of two records with different marker sizes the one with the larger marker does not come later. Only at exactly 70% does it depend on rounding whether a record is drawn.", "quantifier": "for all lists of fewer than 2^40 different records and every rounding to a nearest number of 53 bits", "why_tests_cant": "Floor of a rounded product goes wrong only for particular numbers of records, such as 90, where 0.7*90 is below 63.", "anchors": ["ade/history.py: Analysis.Kp12, plotXY"]}
{"id": "C168", "title": "Sampling of record pairs ends, with the number of draws computed in floats", "statement": "The number of random pairs that the closest-pair finder draws in a round is computed with floats. It is at least twice and at most five times the number of pairs missing, and differs from the exact number by one at most. So the sampling ends: the chance that more than t + 5 N draws are needed for N pairs is at most 2^N (7/8)^t. As long as ten or more pairs are missing, a round yields on the average as many as are missing.", "quantifier": "for all sets of two or more rows, all numbers of pairs, every rounding to a nearest number of 53 bits, all sequences of draws", "why_tests_cant": "A number of draws of zero would mean an endless recursion, and whether it occurs depends on how a product is rounded; tests see only some sizes of histories.", "anchors": ["ade/history.py: ClosestPairFinder.pairs_sampled"]}
