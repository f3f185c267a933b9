{
 "claims": [
  {
   "property": "C01",
   "status": "proved",
   "theorems": [
    "Ade.C01_score_reads",
    "Ade.C01_score_nonneg",
    "Ade.C01_bool_iff",
    "Ade.C01_bool_special",
    "Ade.C01_evaluate",
    "Ade.C01_copy_forgets_failure",
    "Ade.C01_copy_same_score"
   ],
   "note": "Scores over all float values; also records that copy() forgets a failure."
  },
  {
   "property": "C02",
   "status": "proved",
   "theorems": [
    "Ade.C02_lt_is_score_order",
    "Ade.C02_ltNum",
    "Ade.C02_strict_order",
    "Ade.C02_total",
    "Ade.C02_failed_never_better",
    "Ade.C02_blacklisted_never_better"
   ],
   "note": ""
  },
  {
   "property": "C03",
   "status": "proved",
   "theorems": [
    "Ade.C03_key_iff",
    "Ade.C03_same_bits_same_hash",
    "Ade.C03_rawEq_iff",
    "Ade.C03_eq_iff",
    "Ade.C03_eq_ranks_same",
    "Ade.C03_equal_but_different_key",
    "Ade.Ieee754.C03_key_numbers",
    "Ade.Ieee754.C03_overflow",
    "Ade.Ieee754.C03_equal_same_hash",
    "Ade.Ieee754.C03_signed_zeros"
   ],
   "note": "Identity key characterised at byte level, for any floating point arithmetic and for the binary formats of IEEE 754. Equal individuals are bitwise the same and so have the same key, unless there is a zero among their values or their score is zero: 0.0 and -0.0 are equal and make different keys (C03_signed_zeros)."
  },
  {
   "property": "C04",
   "status": "proved",
   "theorems": [
    "Ade.C04_limit_within"
   ],
   "note": ""
  },
  {
   "property": "C05",
   "status": "proved",
   "theorems": [
    "Ade.C05_limit_legal",
    "Ade.C05_limit_idempotent",
    "Ade.C05_limit_reflects",
    "Ade.C05_limit_spec"
   ],
   "note": ""
  },
  {
   "property": "C06",
   "status": "proved",
   "theorems": [
    "Ade.C06_fromUnity_within",
    "Ade.C06_round_trip",
    "Ade.C06_round_trip_back"
   ],
   "note": ""
  },
  {
   "property": "C07",
   "status": "proved",
   "theorems": [
    "Ade.C07_params_dict",
    "Ade.C07_passes_iff",
    "Ade.C07_order_irrelevant",
    "Ade.C07_setConstraints"
   ],
   "note": ""
  },
  {
   "property": "C08",
   "status": "proved",
   "theorems": [
    "Ade.C08_accepts_iff",
    "Ade.C08_rejects_iff",
    "Ade.C08_order_irrelevant"
   ],
   "note": ""
  },
  {
   "property": "C09",
   "status": "partial",
   "theorems": [
    "Ade.C09_lazy_partial",
    "Ade.C09_clash_breaks",
    "Ade.C09_collected_breaks",
    "Ade.C09_collected_iff",
    "Ade.C09_collected_stale"
   ],
   "note": "Full property is false for the code (shared dict, late binding); holds for lazy consumption without name clashes."
  },
  {
   "property": "C10",
   "status": "proved",
   "theorems": [
    "Ade.C10_sorted_enumeration",
    "Ade.C10_sorted_with_values",
    "Ade.C10_sorted_with_values_order",
    "Ade.C10_duplicates_break"
   ],
   "note": "For distinct names."
  },
  {
   "property": "C11",
   "status": "proved",
   "theorems": [
    "Ade.Sampler.C11_distinct_allowed",
    "Ade.Sampler.C11_uniform_succeeds",
    "Ade.Sampler.C11_bias_zero_best"
   ],
   "note": ""
  },
  {
   "property": "C12",
   "status": "proved",
   "theorems": [
    "Ade.Sampler.C12_returns_candidate",
    "Ade.Sampler.C12_rank_bound",
    "Ade.Sampler.C12_rank_bound_sharp",
    "Ade.Sampler.C12_bias_zero",
    "Ade.Sampler.C12_lower_bias_earlier"
   ],
   "note": ""
  },
  {
   "property": "C13",
   "status": "partial",
   "theorems": [
    "Ade.Sampler.C13_can_finish_partial",
    "Ade.Sampler.C13_small_bias_never_returns",
    "Ade.Sampler.C13_witness",
    "Ade.Sampler.C13_single_returns",
    "Ade.Sampler.C13_tail_partial",
    "Ade.Sampler.C13_almost_surely_partial"
   ],
   "note": "False for small bias with N >= 2: the same index is drawn for ever (witness). Otherwise the request returns with probability one (C13_almost_surely_partial), the probability of still waiting after t draws being at most N(1-p)^t (C13_tail_partial)."
  },
  {
   "property": "C14",
   "status": "proved",
   "theorems": [
    "Ade.Population.C14_size",
    "Ade.Population.C14_size_default",
    "Ade.Population.C14_size_bounds",
    "Ade.Population.C14_one_lock_per_member"
   ],
   "note": ""
  },
  {
   "property": "C15",
   "status": "proved",
   "theorems": [
    "Ade.Population.C15_ranking_current",
    "Ade.Population.C15_reads_keep_members",
    "Ade.Population.C15_sorted_current",
    "Ade.Population.C15_best_current",
    "Ade.Population.C15_members",
    "Ade.Population.C15_rescored_in_place_stale",
    "Ade.Population.C15_query_during_setup_stale"
   ],
   "note": "Proved for the operations of the statement; two exceptions outside it recorded: rescoring a member in place, and queries during setup."
  },
  {
   "property": "C16",
   "status": "proved",
   "theorems": [
    "Ade.Population.C16_push_replaces_worst",
    "Ade.Population.C16_push_keeps_best",
    "Ade.Population.C16_single_member_exception"
   ],
   "note": "With a single member the best is the worst (exception recorded)."
  },
  {
   "property": "C17",
   "status": "proved",
   "theorems": [
    "Ade.Setup.C17_setup_complete",
    "Ade.Setup.C17_never_too_many",
    "Ade.Setup.C17_blank_setup",
    "Ade.Setup.C17_never_stuck",
    "Ade.Setup.C17_again"
   ],
   "note": "The DeferredTracker is modelled by its documented behaviour."
  },
  {
   "property": "C18",
   "status": "proved",
   "theorems": [
    "Ade.Setup.C18_fatal_aborts",
    "Ade.Setup.C18_failed_never_member",
    "Ade.Setup.C18_no_new_evaluation",
    "Ade.Setup.C18_abort_finishes",
    "Ade.Setup.C18_shut_down"
   ],
   "note": ""
  },
  {
   "property": "C19",
   "status": "partial",
   "theorems": [
    "Ade.Setup.C19_rows_in_order_partial",
    "Ade.Setup.C19_last_row_never_used",
    "Ade.Setup.C19_witness"
   ],
   "note": "The rows are used in order, but the last one never (witness): the full property is false."
  },
  {
   "property": "C20",
   "status": "proved",
   "theorems": [
    "Ade.Replacement.C20_decided_on_sum",
    "Ade.Replacement.C20_inquiry_resets",
    "Ade.Replacement.C20_first_keeps",
    "Ade.Replacement.C20_set_target",
    "Ade.Replacement.C20_target_reached",
    "Ade.Replacement.C20_zero_never",
    "Ade.Replacement.C20_monotone",
    "Ade.Replacement.C20_threshold"
   ],
   "note": "Reports before the first inquiry are ignored."
  },
  {
   "property": "C21",
   "status": "proved",
   "theorems": [
    "Ade.FManager.C21_range_within_limits",
    "Ade.FManager.C21_draws_in_range",
    "Ade.FManager.C21_zero_lower_limit",
    "Ade.FManager.C21_setters",
    "Ade.FManager.actual_good"
   ],
   "note": "Over every ordered field; actual_good shows the constants of the code qualify."
  },
  {
   "property": "C22",
   "status": "proved",
   "theorems": [
    "Ade.FManager.C22_reaches_limit",
    "Ade.FManager.C22_not_below_critical",
    "Ade.FManager.C22_stays_above_critical",
    "Ade.FManager.C22_reported_only_at_limit",
    "Ade.FManager.C22_up_clears"
   ],
   "note": ""
  },
  {
   "property": "C23",
   "status": "proved",
   "theorems": [
    "Ade.FManager.C23_not_adaptive_fixed",
    "Ade.FManager.C23_single_adapts"
   ],
   "note": "A single factor does adapt when adaptation is on."
  },
  {
   "property": "C24",
   "status": "proved",
   "theorems": [
    "Ade.Challenge.C24_parameter_form",
    "Ade.Challenge.C24_from_donor",
    "Ade.Challenge.C24_from_target",
    "Ade.Challenge.C24_donor_share",
    "Ade.Challenge.C24_within"
   ],
   "note": ""
  },
  {
   "property": "C25",
   "status": "proved",
   "theorems": [
    "Ade.Sampler.C25_lock_accepts_iff",
    "Ade.Sampler.C25_four_distinct",
    "Ade.Sampler.C25_choices_made",
    "Ade.RunLoop.C25_base_rule",
    "Ade.RunLoop.C25_base_not_target"
   ],
   "note": ""
  },
  {
   "property": "C26",
   "status": "proved",
   "theorems": [
    "Ade.DESystem.C26_mutual_exclusion",
    "Ade.DESystem.C26_reads_no_target_in_progress",
    "Ade.DESystem.C26_evaluated_reads_no_target",
    "Ade.DESystem.C26_nothing_read_after_end",
    "Ade.DESystem.C26_shared_after_end"
   ],
   "note": "After a shutdown two challenges may have been granted the same lock (C26_shared_after_end), but then neither reads nor replaces a member."
  },
  {
   "property": "C27",
   "status": "proved",
   "theorems": [
    "Ade.DESystem.C27_no_deadlock",
    "Ade.DESystem.C27_bounded"
   ],
   "note": ""
  },
  {
   "property": "C28",
   "status": "proved",
   "theorems": [
    "Ade.DESystem.C28_async_eq_sequential",
    "Ade.DESystem.C28_reads_sequential",
    "Ade.DESystem.C28_always_sequential_member",
    "Ade.DESystem.C28_completes",
    "Ade.DESystem.C28_any_number"
   ],
   "note": ""
  },
  {
   "property": "C29",
   "status": "proved",
   "theorems": [
    "Ade.DESystem.C29_step_improves",
    "Ade.DESystem.C29_run_improves",
    "Ade.DESystem.C29_best_never_worse"
   ],
   "note": ""
  },
  {
   "property": "C30",
   "status": "proved",
   "theorems": [
    "Ade.Challenge.C30_members_stay_legal"
   ],
   "note": ""
  },
  {
   "property": "C31",
   "status": "partial",
   "theorems": [
    "Ade.Challenge.C31_finite_beats_infinite_partial",
    "Ade.Challenge.C31_nan_never_beaten",
    "Ade.Challenge.C31_nan_member_stays"
   ],
   "note": "Holds for an infinite target score; a NaN score is never beaten."
  },
  {
   "property": "C32",
   "status": "proved",
   "theorems": [
    "Ade.RunLoop.C32_run_shape",
    "Ade.RunLoop.C32_generations",
    "Ade.RunLoop.C32_call"
   ],
   "note": ""
  },
  {
   "property": "C33",
   "status": "proved",
   "theorems": [
    "Ade.RunLoop.C33_gives_up_iff",
    "Ade.RunLoop.C33_bitter_end",
    "Ade.RunLoop.C33_not_adaptive_never"
   ],
   "note": ""
  },
  {
   "property": "C34",
   "status": "partial",
   "theorems": [
    "Ade.RunLoop.C34_no_goal_partial",
    "Ade.RunLoop.C34_goal_fails"
   ],
   "note": "With a goal set the code raises TypeError at the end of the first undisturbed generation (individual method compared with a number): the full property is false."
  },
  {
   "property": "C35",
   "status": "proved",
   "theorems": [
    "Ade.DESystem.C35_frozen",
    "Ade.DESystem.C35_frozen_run",
    "Ade.DESystem.C35_shutdown_idempotent",
    "Ade.DESystem.C35_outstanding_finish",
    "Ade.DESystem.C35_fatal_stops"
   ],
   "note": ""
  },
  {
   "property": "C36",
   "status": "partial",
   "theorems": [
    "Ade.History.C36_bounded_sorted_partial",
    "Ade.History.C36_bounded_sorted_nopurge",
    "Ade.History.C36_purge_then_add_shares_row",
    "Ade.History.C36_row_in_use_iff"
   ],
   "note": "Holds for all operation sequences that do not meet a colliding row set, in particular all without purgePop; false after purgePop (witness)."
  },
  {
   "property": "C37",
   "status": "proved",
   "theorems": [
    "Ade.History.C37_add_not_full",
    "Ade.History.C37_add_full",
    "Ade.History.C37_exactly_the_added",
    "Ade.History.C37_add_nopurge",
    "Ade.History.C37_lost_after_purge"
   ],
   "note": "The conditions of the statement are Legal and ReachNP of Spec/History.lean.  C37_lost_after_purge: they can not be dropped, an addition after purging the population may lose a record."
  },
  {
   "property": "C38",
   "status": "partial",
   "theorems": [
    "Ade.History.C38_members_kept_nopurge",
    "Ade.History.C38_members_kept_by_add",
    "Ade.History.C38_members_removed_only_by_purge_or_clear",
    "Ade.History.C38_purge_removes_members",
    "Ade.History.C38_member_overwritten_after_purge"
   ],
   "note": "Proved for every history on which the population was never purged (more generally, on which no addition met a colliding row set), for proper requests: a full history has capacity 2 or at least 4 and does not consist of members only, otherwise the addition fails (C39).  False after purging the population: an addition to a history that is not full may overwrite the record of a current member (C38_member_overwritten_after_purge)."
  },
  {
   "property": "C39",
   "status": "partial",
   "theorems": [
    "Ade.History.C39_add_completes_partial",
    "Ade.History.C39_full_of_members_fails",
    "Ade.History.C39_after_failure_all_blocked",
    "Ade.History.C39_capacity_three_and_one_fail",
    "Ade.History.C39_overflow_fails"
   ],
   "note": "False in full: exceptions in add leave the lock held."
  },
  {
   "property": "C40",
   "status": "proved",
   "theorems": [
    "Ade.History.C40_total_counts_unless_failed",
    "Ade.History.C40_total_counts",
    "Ade.History.C40_total_monotone"
   ],
   "note": "C40_total_counts shows that no addition fails on properly requested runs."
  },
  {
   "property": "C41",
   "status": "partial",
   "theorems": [
    "Ade.PopHistory.C41_marks_are_members_partial",
    "Ade.PopHistory.C41_replaced_is_former",
    "Ade.PopHistory.C41_duplicates_break",
    "Ade.PopHistory.C41_changed_score_breaks",
    "Ade.History.C41_purge_forgets"
   ],
   "note": "Holds for members with distinct stable hashes; false for duplicates or members changed in place."
  },
  {
   "property": "C42",
   "status": "partial",
   "theorems": [
    "Ade.History.C42_views_partition_nopurge",
    "Ade.History.C42_views_partition",
    "Ade.History.C42_views_cover",
    "Ade.History.C42_views_cover_any",
    "Ade.History.C42_views_overlap_after_purge"
   ],
   "note": "Together the views always are all records, in any state.  That they are disjoint is proved for every history on which the population was never purged.  False after purging the population: a member may take the row of a record that never was one and is in both views (C42_views_overlap_after_purge)."
  },
  {
   "property": "C43",
   "status": "proved",
   "theorems": [
    "Ade.ClosestPair.C43_chooses_from_closest_pair",
    "Ade.ClosestPair.C43_single",
    "Ade.ClosestPair.C43_none_eligible_raises",
    "Ade.ClosestPair.C43_is_chooser",
    "Ade.ClosestPair.C43_rejects_nonfinite",
    "Ade.History.C43_eligible_iff",
    "Ade.History.C37_add_full"
   ],
   "note": "With no eligible record an exception is raised (see C39)."
  },
  {
   "property": "C44",
   "status": "partial",
   "theorems": [
    "Ade.History.C44_round_trip_partial",
    "Ade.History.C44_wide_rows_break",
    "Ade.History.C44_other_process_breaks"
   ],
   "note": "Exact round trip for capacity <= 65536 within one process; hashes differ across processes (witness)."
  },
  {
   "property": "C45",
   "status": "proved",
   "theorems": [
    "Ade.SaveLoad.C45_same_contents",
    "Ade.SaveLoad.C45_runnable",
    "Ade.SaveLoad.C45_never_set_up",
    "Ade.SaveLoad.C45_new_bounds",
    "Ade.SaveLoad.C45_bounds_ignore_constraints",
    "Ade.SaveLoad.C45_not_kept"
   ],
   "note": "Constraints are not checked when loading with new bounds; the evaluation counter, the replacement score and the reported best are not kept (recorded)."
  },
  {
   "property": "C46",
   "status": "partial",
   "theorems": [
    "Ade.Reporter.C46_no_better_no_change",
    "Ade.Reporter.C46_best_seen_partial",
    "Ade.Reporter.C46_complaint_forgets",
    "Ade.Reporter.C46_nan_best_stays"
   ],
   "note": "Holds while nobody complains and no reported score is NaN; witnesses for both exceptions."
  },
  {
   "property": "C47",
   "status": "partial",
   "theorems": [
    "Ade.Reporter.C47_none_iff",
    "Ade.Reporter.C47_zero_iff_partial",
    "Ade.Reporter.C47_nearest",
    "Ade.Reporter.C47_halfway",
    "Ade.Reporter.C47_monotone_partial",
    "Ade.Reporter.C47_character",
    "Ade.Reporter.C47_zero_tie",
    "Ade.Reporter.C47_perfect_score_smaller_ratio",
    "Ade.Reporter.C47_bogus_challenger",
    "Ade.Reporter.C47_bogus_old",
    "Ade.Reporter.C47_documented_partial",
    "Ade.Reporter.C47_documented_wrong"
   ],
   "note": "False for a score of zero: a tie of two zero scores counts as ratio 1000 and a perfect score can have a smaller ratio than an imperfect one; an infinite or NaN challenger counts as 0."
  },
  {
   "property": "C48",
   "status": "proved",
   "theorems": [
    "Ade.Reporter.C48_batches",
    "Ade.Reporter.C48_last_delivered",
    "Ade.Reporter.C48_call_content",
    "Ade.Reporter.C48_new_best_reported",
    "Ade.Reporter.C48_forced_reported",
    "Ade.Reporter.C48_settles",
    "Ade.Reporter.C48_failed_handler_blocks"
   ],
   "note": "A failing complaint handler blocks callbacks for ever (recorded)."
  },
  {
   "property": "C49",
   "status": "partial",
   "theorems": [
    "Ade.Reporter.C49_blacklisted",
    "Ade.Reporter.C49_complaint_ignored",
    "Ade.Reporter.C49_restored_partial",
    "Ade.Reporter.C49_first_of_run_not_restored",
    "Ade.Reporter.C49_next_takes_over"
   ],
   "note": "The remembered best reverts only to the individual that was being delivered when the callbacks started; a complaint about the first one of a run restores nothing (witness)."
  },
  {
   "property": "C50",
   "status": "partial",
   "theorems": [
    "Ade.Specs.C50_found",
    "Ade.Specs.C50_missing_partial",
    "Ade.Specs.C50_stops_at_value",
    "Ade.Specs.C50_loaded_wf",
    "Ade.Specs.C50_found_loaded",
    "Ade.Specs.C50_witness"
   ],
   "note": "Lookup finds the entry with the given path, and an empty dict when the path leaves the dicts at a missing key. When the path runs through a value that is not a dict, the code returns that value instead (proved with a witness), so the full statement fails there."
  },
  {
   "property": "C51",
   "status": "proved",
   "theorems": [
    "Ade.Specs.C51_value_round_trip",
    "Ade.Specs.C51_integer_round_trip",
    "Ade.Specs.C51_nat_digits_round_trip",
    "Ade.Specs.C51_number_iff",
    "Ade.Specs.C51_list_round_trip",
    "Ade.Specs.C51_comma_without_space",
    "Ade.Specs.C51_text_lowercased",
    "Ade.Specs.C51_bare_point"
   ],
   "note": "Numbers are exact rationals in the model; the rounding of float() is not modelled."
  },
  {
   "property": "C52",
   "status": "partial",
   "theorems": [
    "Ade.Specs.C52_flat_total_partial",
    "Ade.Specs.C52_crashes",
    "Ade.Specs.C52_vanishes",
    "Ade.Specs.C52_unset_iff",
    "Ade.Specs.C52_entry",
    "Ade.Specs.C52_list_item",
    "Ade.Specs.C52_below_value",
    "Ade.Specs.C52_no_name",
    "Ade.Specs.C52_integer_name"
   ],
   "note": "False of the code: an empty file, a key-only line inside a dict, an integer attribute name and an entry below a non-dict crash the reader with errors other than ValueError, and an unclosed dict or name=value without spaces vanish silently (all proved on witnesses). Proved: files without dict definitions whose names are not integers and have no colon are always read; well-formed documents are covered by C63. Within a dict, which entries are stored and which are refused how is proved in general (C52_entry, C52_list_item, C52_below_value), as are hyphens without a name and dicts named by a number."
  },
  {
   "property": "C53",
   "status": "proved",
   "theorems": [
    "Ade.Abort.C53_in_order_once",
    "Ade.Abort.C53_press_calls_all",
    "Ade.Abort.C53_first_press",
    "Ade.Abort.C53_second_press_nothing",
    "Ade.Abort.C53_failure_continues",
    "Ade.Abort.C53_late_registration",
    "Ade.Abort.C53_abort_now",
    "Ade.Abort.C53_ignored",
    "Ade.Abort.C53_registered_after_shutdown_runs",
    "Ade.Abort.C53_registered_meanwhile",
    "Ade.Abort.C53_ends",
    "Ade.Abort.C53_never_ends",
    "Ade.Abort.C53_none_registered"
   ],
   "note": "A clean shutdown counts as an abort: functions registered after it run at once (recorded)."
  },
  {
   "property": "C54",
   "status": "proved",
   "theorems": [
    "Ade.Bag.C54_latest",
    "Ade.Bag.C54_latest_exists",
    "Ade.Bag.C54_at_most_once"
   ],
   "note": ""
  },
  {
   "property": "C55",
   "status": "partial",
   "theorems": [
    "Ade.EvalTimer.C55_order_by_end_partial",
    "Ade.EvalTimer.C55_fails",
    "Ade.EvalTimer.C55_duration_irrelevant"
   ],
   "note": "The code averages the clock readings at the end of the calls instead of durations: the property is false."
  },
  {
   "property": "C56",
   "status": "proved",
   "theorems": [
    "Ade.Messenger.C56_in_order",
    "Ade.Messenger.C56_own_line",
    "Ade.Messenger.C56_chars",
    "Ade.Messenger.C56_no_file",
    "Ade.Messenger.C56_broken_file",
    "Ade.Messenger.C56_single_text",
    "Ade.Messenger.C56_blank_line_before",
    "Ade.Messenger.C56_layout",
    "Ade.Messenger.C56_no_suffix",
    "Ade.Messenger.C56_select_file",
    "Ade.Messenger.C56_only_newline",
    "Ade.Messenger.C56_one_not_indented"
   ],
   "note": ""
  },
  {
   "property": "C57",
   "status": "proved",
   "theorems": [
    "Ade.Analysis.C57_names_distinct",
    "Ade.Analysis.C57_first_name"
   ],
   "note": ""
  },
  {
   "property": "C58",
   "status": "proved",
   "theorems": [
    "Ade.Analysis.C58_name_round_trip",
    "Ade.Analysis.C58_column_round_trip",
    "Ade.Analysis.C58_unknown"
   ],
   "note": ""
  },
  {
   "property": "C59",
   "status": "partial",
   "theorems": [
    "Ade.Lgg.C59_in_score_order",
    "Ade.Lgg.C59_row_limit",
    "Ade.Lgg.C59_within_ratio",
    "Ade.Lgg.C59_best_last_partial",
    "Ade.Lgg.C59_limit_drops_best",
    "Ade.Lgg.C59_neighbours_differ",
    "Ade.Lgg.C59_dropped_are_close",
    "Ade.Lgg.C59_negative_never_differs",
    "Ade.Lgg.C59_negative_witness"
   ],
   "note": "False whenever the limit is exceeded: the rows with the highest scores are kept and the best is dropped (proved in general)."
  },
  {
   "property": "C60",
   "status": "partial",
   "theorems": [
    "Ade.ClosestPair.C60_never_members_favoured_partial",
    "Ade.ClosestPair.C60_penalty_never_grows",
    "Ade.ClosestPair.C60_penalty_never_grows_sampled",
    "Ade.ClosestPair.C60_penalty_constant"
   ],
   "note": "The code disagrees with its documentation: the preference is a constant."
  },
  {
   "property": "C61",
   "status": "partial",
   "theorems": [
    "Ade.Analysis.C61_selects_by_ratio_partial",
    "Ade.Analysis.C61_best_included",
    "Ade.Analysis.C61_perfect_score_selects_nothing",
    "Ade.Analysis.C61_mode_precedence"
   ],
   "note": "False when the best score is zero."
  },
  {
   "property": "C62",
   "status": "proved",
   "theorems": [
    "Ade.Reporter.C62_delivered_close"
   ],
   "note": ""
  },
  {
   "property": "C63",
   "status": "proved",
   "theorems": [
    "Ade.Specs.C63_document"
   ],
   "note": "For every well-formed document, given by an independent grammar of lines, reading succeeds and stores exactly the attributes and entries described, with the last one winning."
  },
  {
   "property": "C64",
   "status": "partial",
   "theorems": [
    "Ade.Messenger.C64_never_true",
    "Ade.Messenger.C64_no_line_no_partial"
   ],
   "note": "lineWritten() always returns False: writeLine sets a differently named attribute."
  },
  {
   "property": "C65",
   "status": "partial",
   "theorems": [
    "Ade.Lgg.C65_starred_partial",
    "Ade.Lgg.C65_any_log_partial",
    "Ade.Lgg.C65_tie_forgets",
    "Ade.Lgg.C65_repeat_admits_worst"
   ],
   "note": "Holds for logs with distinct scores; false for equal scores (witnesses). For any log, the entries used are at most N, no two with the same score, and one of them has the lowest score (C65_any_log_partial)."
  },
  {
   "property": "C66",
   "status": "proved",
   "theorems": [
    "Ade.FManager.C66_up_raises_range",
    "Ade.FManager.C66_up_raises_single",
    "Ade.FManager.C66_ups_restore",
    "Ade.FManager.C66_one_up_not_enough"
   ],
   "note": "The description of up() says that the upper limit is returned to its original value at once; the code raises it step by step (witness)."
  },
  {
   "property": "C67",
   "status": "proved",
   "theorems": [
    "Ade.Challenge.C67_evaluated_iff",
    "Ade.Challenge.C67_fatal_iff",
    "Ade.Challenge.C67_rejected_iff"
   ],
   "note": ""
  },
  {
   "property": "C68",
   "status": "partial",
   "theorems": [
    "Ade.Generation.C68_report_adds",
    "Ade.Generation.C68_new_best_kept_partial",
    "Ade.Generation.C68_new_best_scaled_down"
   ],
   "note": "Proved: what a report adds to the score, and that a new best individual keeps the status quo when the target is at most 0.6 (30 members by default). False for larger populations: a run in which every generation brings a new best individual is scaled down and gives up (proved on a witness)."
  },
  {
   "property": "C69",
   "status": "proved",
   "theorems": [
    "Ade.Figures.C69_all_parameters",
    "Ade.Figures.C69_named_parameters",
    "Ade.Figures.C69_range",
    "Ade.Figures.C69_stretch",
    "Ade.Figures.C69_figure_sizes",
    "Ade.Figures.C69_no_single_subplot",
    "Ade.Figures.C69_series",
    "Ade.Figures.C69_each_record_once",
    "Ade.Figures.C69_works"
   ],
   "note": "For a positive best score (with a best score of zero nothing is selected, see C61). The keyword sp of plot() is never read, because the code pops 'kw' instead."
  },
  {
   "property": "C70",
   "status": "proved",
   "theorems": [
    "Ade.Figures.C70_each_pair_once",
    "Ade.Figures.C70_descending"
   ],
   "note": "Correlation coefficients are given numbers; a parameter that never changes (NaN) is left out here, see C126."
  },
  {
   "property": "C71",
   "status": "partial",
   "theorems": [
    "Ade.Figures.C71_most_correlated",
    "Ade.Figures.C71_with_name_partial",
    "Ade.Figures.C71_last_name_shows_nothing"
   ],
   "note": "Proved without a name. With a name, only pairs with that parameter in first place are shown; for the last parameter nothing is shown (proved in general)."
  },
  {
   "property": "C72",
   "status": "partial",
   "theorems": [
    "Ade.Figures.C72_fraction_iff",
    "Ade.Figures.C72_fraction_groups_partial",
    "Ade.Figures.C72_equal_scores_draw_nothing",
    "Ade.Figures.C72_portion_positions",
    "Ade.Figures.C72_portion_groups_cover_partial",
    "Ade.Figures.C72_portions_overlap",
    "Ade.Figures.C72_larger_is_better",
    "Ade.Figures.C72_larger_is_earlier"
   ],
   "note": "By score range: holds unless all scores are equal, when nothing is drawn. By rank: all are drawn, but records at boundaries are drawn in two groups (witness)."
  },
  {
   "property": "C73",
   "status": "partial",
   "theorems": [
    "Ade.Figures.C73_weights_partial",
    "Ade.Figures.C73_weight_of_worst_partial",
    "Ade.Figures.C73_perfect_score"
   ],
   "note": "Holds for a positive best score; with a perfect score of zero the best record has no weight (NaN) and all others weight zero."
  },
  {
   "property": "C74",
   "status": "proved",
   "theorems": [
    "Ade.Setup.C74_parallel_limit",
    "Ade.Setup.C74_work_bound",
    "Ade.Setup.C74_members_count",
    "Ade.Setup.C74_completes",
    "Ade.Setup.C74_waits_for_scores"
   ],
   "note": "As long as too few usable scores have been delivered the setup goes on; with an evaluation function that only gives infinite scores it never ends (proved)."
  },
  {
   "property": "C75",
   "status": "proved",
   "theorems": [
    "Ade.HistoryLock.C75_request_order",
    "Ade.HistoryLock.C75_always_a_prefix",
    "Ade.HistoryLock.C75_fired",
    "Ade.HistoryLock.C75_never_stuck",
    "Ade.HistoryLock.C75_progress",
    "Ade.HistoryLock.C75_none_lost"
   ],
   "note": "Exceptions in add leave the lock acquired (see C39), after which nothing changes any more."
  },
  {
   "property": "C76",
   "status": "proved",
   "theorems": [
    "Ade.AbortRun.C76_step_improves",
    "Ade.AbortRun.C76_run_improves",
    "Ade.AbortRun.C76_no_deadlock",
    "Ade.AbortRun.C76_bounded",
    "Ade.AbortRun.C76_no_values",
    "Ade.AbortRun.C76_lock_at_once",
    "Ade.AbortRun.C76_frozen",
    "Ade.AbortRun.C76_failing_for_none_stops",
    "Ade.AbortRun.C76_usable_for_none",
    "Ade.AbortRun.C76_begun_after_shutdown"
   ],
   "note": "The proviso on the evaluation function, which the documentation asks for, is needed: with a usable score for None a member can be replaced by a worse one (proved on a witness)."
  },
  {
   "property": "C77",
   "status": "proved",
   "theorems": [
    "Ade.Sampler.C77_probability",
    "Ade.Sampler.C77_total",
    "Ade.Sampler.C77_better_more_likely",
    "Ade.Sampler.C77_flat_part",
    "Ade.Sampler.C77_one_uniform",
    "Ade.Sampler.C77_drops_at_once",
    "Ade.Sampler.C77_more_uniform",
    "Ade.Sampler.C77_near_zero",
    "Ade.Sampler.C77_near_one",
    "Ade.Sampler.C77_sample"
   ],
   "note": "Probability is the area of the unit square of the two draws of one call, i.e. the draws are taken as independent and uniform; real numbers instead of floats."
  },
  {
   "property": "C78",
   "status": "proved",
   "theorems": [
    "Ade.DESystem.C78_recorded_iff_lost",
    "Ade.DESystem.C78_only_losers",
    "Ade.DESystem.C78_winner_not_recorded"
   ],
   "note": "Which challenger lost is decided by the sequential specification of C28. What the history does with a record is the subject of C37 to C39 and C75."
  },
  {
   "property": "C79",
   "status": "proved",
   "theorems": [
    "Ade.LogText.C79_words",
    "Ade.LogText.C79_line_length",
    "Ade.LogText.C79_stars",
    "Ade.LogText.C79_breaks"
   ],
   "note": "For words that fit on a line; str.format is a given function."
  },
  {
   "property": "C80",
   "status": "proved",
   "theorems": [
    "Ade.LogText.C80_reads_back",
    "Ade.LogText.C80_last_entry",
    "Ade.LogText.C80_individual",
    "Ade.LogText.C80_names",
    "Ade.LogText.C80_printed_numbers",
    "Ade.LogText.C80_infinite_lost",
    "Ade.LogText.C80_unreadable",
    "Ade.LogText.C80_repeated_name"
   ],
   "note": "Individuals with an infinite SSE are not read (proved), nor parameters with other names or values that are not finite numbers (examples); paramAt_iff in Lemmas/LogText proves that the scanner used for the model of re.search matches exactly the pattern."
  },
  {
   "property": "C81",
   "status": "proved",
   "theorems": [
    "Ade.LogText.C81_final_population",
    "Ade.LogText.C81_aligned",
    "Ade.LogText.C81_bad_row"
   ],
   "note": "Names as in C80; the texts of the SSEs must have no white space, bar or equal sign."
  },
  {
   "property": "C82",
   "status": "partial",
   "theorems": [
    "Ade.LggNames.C82_selected_partial",
    "Ade.LggNames.C82_plain",
    "Ade.LggNames.C82_prefix",
    "Ade.LggNames.C82_question",
    "Ade.LggNames.C82_class",
    "Ade.LggNames.C82_default",
    "Ade.LggNames.C82_no_entry",
    "Ade.LggNames.C82_shown",
    "Ade.LggNames.C82_names_read",
    "Ade.LggNames.C82_number_range",
    "Ade.LggNames.C82_letter_range",
    "Ade.LggNames.C82_setup_plain",
    "Ade.LggNames.C82_range_selects_nothing",
    "Ade.LggNames.C82_leading_zeros_lost",
    "Ade.LggNames.C82_set",
    "Ade.LggNames.C82_open_range"
   ],
   "note": "Glob patterns work; RowManager expands ranges, but the script only passes it names already found in the log, so that an argument like x1-3 selects nothing, whatever is in the log (proved in general). With arguments and a log without entries there is a TypeError."
  },
  {
   "property": "C83",
   "status": "proved",
   "theorems": [
    "Ade.LggNames.C83_load",
    "Ade.LggNames.C83_missing",
    "Ade.LggNames.C83_row_words",
    "Ade.LggNames.C83_table",
    "Ade.LggNames.C83_aligned",
    "Ade.LggNames.C83_long_values_misalign"
   ],
   "note": "A value of more than ten characters, such as -1.2346e-05, moves the rest of its row (proved on a witness). An entry without one of the parameters ends the script with a KeyError (proved)."
  },
  {
   "property": "C84",
   "status": "proved",
   "theorems": [
    "Ade.ClosestPair.C84_duplicate_first",
    "Ade.ClosestPair.C84_duplicate_sampled",
    "Ade.ClosestPair.C84_better_pairs_kept",
    "Ade.ClosestPair.C84_never_members_go_first"
   ],
   "note": "Real numbers instead of floats. With more than the maximum number of pairs the finder looks at a random sample; C84_duplicate_sampled is for a twin pair among those. Of a pair of different records the first in iteration order goes, even if it is the better one."
  },
  {
   "property": "C85",
   "status": "proved",
   "theorems": [
    "Ade.ClosestPair.C85_present_rows",
    "Ade.ClosestPair.C85_row_values",
    "Ade.ClosestPair.C85_refused",
    "Ade.ClosestPair.C85_scaling_never_stale",
    "Ade.ClosestPair.C85_shift",
    "Ade.ClosestPair.C85_units"
   ],
   "note": "Exact arithmetic."
  },
  {
   "property": "C86",
   "status": "proved",
   "theorems": [
    "Ade.Challenge.C86_independent",
    "Ade.Challenge.C86_probability",
    "Ade.Challenge.C86_expected"
   ],
   "note": "The draws of numpy's generator are taken as independent and uniform on [0, 1); real numbers instead of floats."
  },
  {
   "property": "C87",
   "status": "proved",
   "theorems": [
    "Ade.Progress.C87_lines",
    "Ade.Progress.C87_line_length",
    "Ade.Progress.C87_full_lines",
    "Ade.Progress.C87_only_messages"
   ],
   "note": "The messenger's file works; characters and texts without newlines for C87_line_length."
  },
  {
   "property": "C88",
   "status": "proved",
   "theorems": [
    "Ade.DESystem.C88_members_evaluated",
    "Ade.DESystem.C88_not_beaten_by_challengers",
    "Ade.BestKept.C88_best_never_lost",
    "Ade.BestKept.C88_nan_loses_best"
   ],
   "note": "The proviso on NaN is needed: a challenger better than all other members is lost when its target has a NaN score (proved on a witness). With xSSE, the score of a challenger is what the evaluation function returned."
  },
  {
   "property": "C89",
   "status": "partial",
   "theorems": [
    "Ade.Picklable.C89_public_kept_partial",
    "Ade.Picklable.C89_overrides_lost",
    "Ade.Picklable.C89_slots",
    "Ade.Picklable.C89_idempotent"
   ],
   "note": "Without __slots__, attributes whose name starts with an underscore and those that override an attribute of the class (e.g. a class-level default) are lost; all others survive. With __slots__ everything in them survives."
  },
  {
   "property": "C90",
   "status": "proved",
   "theorems": [
    "Ade.Options.C90_given",
    "Ade.Options.C90_default",
    "Ade.Options.C90_crossover_rate",
    "Ade.Options.C90_unknown_ignored",
    "Ade.Options.C90_crossover_rate_kinds"
   ],
   "note": "Misspelled keywords are silently ignored (proved); a NaN crossover rate is accepted. For classes that define no attribute of the option's name."
  },
  {
   "property": "C91",
   "status": "partial",
   "theorems": [
    "Ade.Image.C91_one_at_a_time",
    "Ade.Image.C91_no_second_viewer",
    "Ade.Image.C91_starts_viewer",
    "Ade.Image.C91_messages",
    "Ade.Image.C91_no_complaints",
    "Ade.Image.C91_never_terminated",
    "Ade.Image.C91_not_restarted",
    "Ade.Image.C91_arguments",
    "Ade.Image.C91_option",
    "Ade.Image.C91_options"
   ],
   "note": "The parts on starting viewers hold. After the first start the file is not watched any more, so that a viewer is never told to terminate nor another one started (proved in general); options without {} are left out (proved)."
  },
  {
   "property": "C92",
   "status": "proved",
   "theorems": [
    "Ade.Challenge.C92_units",
    "Ade.Challenge.C92_initial",
    "Ade.Challenge.C92_order",
    "Ade.Challenge.C92_constraints"
   ],
   "note": "Exact arithmetic. Factors must be positive: turning a parameter round is not covered, because limit treats overshoots larger than the range differently at the two bounds. The random draws are those of the challenges (F, crossover) and the points of the initial population."
  },
  {
   "property": "C93",
   "status": "proved",
   "theorems": [
    "Ade.Challenge.C93_ranking"
   ],
   "note": "For given values of F: in adaptive mode F itself depends on ratios of scores (replacement)."
  },
  {
   "property": "C94",
   "status": "proved",
   "theorems": [
    "Ade.Challenge.C94_early_abort",
    "Ade.Challenge.C94_early_abort_converse",
    "Ade.Thermistor.C94_thermistor_stop",
    "Ade.Thermistor.C94_thermistor",
    "Ade.Thermistor.C94_residuals_nonneg",
    "Ade.Thermistor.C94_thermistor_zero",
    "Ade.Thermistor.C94_thermistor_saves"
   ],
   "note": "Exact arithmetic; the early-stopping function must return a score that is not negative and not below the score to beat. Schedules are compared up to the history additions of losing challengers, which with xSSE do not take place."
  },
  {
   "property": "C95",
   "status": "proved",
   "theorems": [
    "Ade.Thermistor.C95_arguments",
    "Ade.Thermistor.C95_curve_decreasing",
    "Ade.Thermistor.C95_penalty",
    "Ade.Thermistor.C95_weights",
    "Ade.Thermistor.C95_rate_weight",
    "Ade.Thermistor.C95_steinhart_hart",
    "Ade.Thermistor.C95_perfect",
    "Ade.Thermistor.C95_bounds",
    "Ade.Thermistor.C95_search_space"
   ],
   "note": "Real numbers. The rate of change of the second reading is taken from half its temperature, since the filter starts from zero (C95_weights states it)."
  },
  {
   "property": "C96",
   "status": "partial",
   "theorems": [
    "Ade.Voc.C96_curve_partial",
    "Ade.Voc.C96_score_partial",
    "Ade.Voc.C96_mixed_parameters",
    "Ade.Voc.C96_not_documented",
    "Ade.Voc.C96_score_adds"
   ],
   "note": "The code does not have this property: names are sorted (a1, a2, a3, b1, ...) but the curve takes its arguments in threes as amplitude, time constant and offset (C96_mixed_parameters); C96_not_documented has values within the bounds for which the curve is not the documented one at any time. Proved: fall towards voc if a2 is not 0 (its lower bound is 0, and it is a divisor), score."
  },
  {
   "property": "C97",
   "status": "proved",
   "theorems": [
    "Ade.GoldsteinPrice.C97_minimum",
    "Ade.GoldsteinPrice.C97_within_bounds"
   ],
   "note": "In any linearly ordered field; the program computes with 32-bit floats."
  },
  {
   "property": "C98",
   "status": "partial",
   "theorems": [
    "Ade.ExecRunner.C98_two_in_flight_partial",
    "Ade.ExecRunner.C98_pool_partial",
    "Ade.ExecRunner.C98_in_turn",
    "Ade.ExecRunner.C98_mixed_up",
    "Ade.ExecRunner.C98_before_connection",
    "Ade.ExecRunner.C98_shutdown_without_effect",
    "Ade.ExecRunner.C98_not_next_free",
    "Ade.ExecRunner.C98_busy_though_free"
   ],
   "note": "The code does not have this property: of several commands issued at once all but the first get the answer to the last one (C98_mixed_up; all of them before the connection, C98_before_connection), the pool gives commands to its runners in turn whether they are free or not, shutdown does nothing. Proved: own results as long as no command is issued to a runner on which two others wait (one before the connection)."
  },
  {
   "property": "C99",
   "status": "proved",
   "theorems": [
    "Ade.TimeData.C99_readings",
    "Ade.TimeData.C99_times",
    "Ade.TimeData.C99_load",
    "Ade.TimeData.C99_row"
   ],
   "note": "Under Python 2 as the example needs it. An empty line in the file is an error (C99_load)."
  },
  {
   "property": "C100",
   "status": "proved",
   "theorems": [
    "Ade.Challenge.C100_settled",
    "Ade.Challenge.C100_all_alike",
    "Ade.Challenge.C100_reach"
   ],
   "note": "The bound on the reach needs F >= 0 (as all values of F are, C21)."
  },
  {
   "property": "C101",
   "status": "partial",
   "theorems": [
    "Ade.Locks.C101_request",
    "Ade.Locks.C101_not_running",
    "Ade.Locks.C101_exclusive_partial",
    "Ade.Locks.C101_in_order_partial",
    "Ade.Locks.C101_no_deadlock_partial",
    "Ade.Locks.C101_refused",
    "Ade.Locks.C101_refused_keeps_locks",
    "Ade.Locks.C101_waits_for_itself",
    "Ade.Locks.C101_too_large_index",
    "Ade.Locks.C101_too_large",
    "Ade.Locks.C101_release",
    "Ade.Locks.C101_release_missing"
   ],
   "note": "The code does not have this property for careless requests: a refused request keeps the locks taken before the repeated index was met, for ever (C101_refused_keeps_locks); a member named from the front and from the back makes a request wait for itself; an index that is too large releases everybody's locks. Proved for requests naming different existing members, as all requests of the package do (C25)."
  },
  {
   "property": "C102",
   "status": "partial",
   "theorems": [
    "Ade.Pv.C102_shown_partial",
    "Ade.Pv.C102_no_file",
    "Ade.Pv.C102_one_parameter"
   ],
   "note": "The code does not have this property for populations with one parameter: with -N the figures made for -r are not shown and it says that nothing was done (C102_one_parameter). Proved for two or more parameters."
  },
  {
   "property": "C103",
   "status": "proved",
   "theorems": [
    "Ade.Extract.C103_not_overwritten",
    "Ade.Extract.C103_created",
    "Ade.Extract.C103_idempotent",
    "Ade.Extract.C103_restored",
    "Ade.Extract.C103_kinds"
   ],
   "note": "For any list of extensions: ade/__init__.py has a copy of the function without .specs."
  },
  {
   "property": "C104",
   "status": "partial",
   "theorems": [
    "Ade.Args.C104_values_partial",
    "Ade.Args.C104_positional_partial",
    "Ade.Args.C104_no_positional",
    "Ade.Args.C104_declared_late",
    "Ade.Args.C104_ignored",
    "Ade.Args.C104_callable",
    "Ade.Args.C104_paragraphs"
   ],
   "note": "The code does not have this property: without a declaration of positional arguments the object is no empty sequence but len() and iteration raise (C104_no_positional); options declared after the first access are not seen (C104_declared_late); calls with two arguments are ignored (C104_ignored). argparse itself is taken as documented."
  },
  {
   "property": "C105",
   "status": "proved",
   "theorems": [
    "Ade.Rounding.C105_limit_within",
    "Ade.Rounding.C105_limit_keeps",
    "Ade.Rounding.C105_limit_reflects",
    "Ade.Rounding.C105_members_within",
    "Ade.Rounding.C105_fromUnity_within",
    "Ade.Rounding.C105_initial_unchanged",
    "Ade.Rounding.C105_at_one"
   ],
   "note": "Overflow and underflow are left out. A normalized value of exactly one, which Latin hypercube sampling can give by rounding, may be scaled to a value above the upper bound (C105_at_one); setup limits it, after having checked the constraints, spawn does not."
  },
  {
   "property": "C106",
   "status": "partial",
   "theorems": [
    "Ade.Whole.C106_first_usable",
    "Ade.Whole.C106_members_legal",
    "Ade.Whole.C106_only_legal_evaluated",
    "Ade.Whole.C106_best_partial",
    "Ade.Whole.C106_surplus_lost"
   ],
   "note": "The code does not have this property: evaluations of the setup that end when the population is full are dropped, even the best one (C106_surplus_lost). C106_best_partial covers the first Np usable scores, and all if there are no more; NaN scores are excluded (see C31, C88)."
  },
  {
   "property": "C107",
   "status": "partial",
   "theorems": [
    "Ade.Arrays.C107_own_values",
    "Ade.Arrays.C107_start_separate",
    "Ade.Arrays.C107_write_local",
    "Ade.Arrays.C107_challenge_changes_none",
    "Ade.Arrays.C107_record_kept",
    "Ade.Arrays.C107_copy_independent",
    "Ade.Arrays.C107_evaluator_can_alter",
    "Ade.Arrays.C107_update_array_shares",
    "Ade.Arrays.C107_wrong_length"
   ],
   "note": "The code does not have the last part of this property: an evaluation function that changes its argument in place changes the individual (C107_evaluator_can_alter), and update, spawn and the constructor keep an array they are given (C107_update_array_shares). Everything else is proved for any operations in any order. These theorems also justify the other modules' treatment of values as values."
  },
  {
   "property": "C108",
   "status": "partial",
   "theorems": [
    "Ade.Dims.C108_read",
    "Ade.Dims.C108_pv",
    "Ade.Dims.C108_file_height",
    "Ade.Dims.C108_window_partial",
    "Ade.Dims.C108_keywords_ignored",
    "Ade.Dims.C108_constructor_default",
    "Ade.Dims.C108_window_keywords"
   ],
   "note": "The code does not have this property: when a file is written, the keyword dims of plot, plotCorrelated and makePlotter is ignored (C108_keywords_ignored, C108_constructor_default). It holds for pv and filePath and for windows. What yampex makes of width and height is not modelled."
  },
  {
   "property": "C109",
   "status": "proved",
   "theorems": [
    "Ade.Waiting.C109_waits",
    "Ade.Waiting.C109_final_report",
    "Ade.Waiting.C109_wait_ends",
    "Ade.Waiting.C109_not_waited"
   ],
   "note": "For callbacks that return without complaint during the wait. After an abort nothing is waited for (C109_not_waited), as documented. deferToAll of asynqueue's DeferredTracker is taken as documented; the wait for the history is in C75."
  },
  {
   "property": "C110",
   "status": "partial",
   "theorems": [
    "Ade.RunSystem.C110_same_choices_partial",
    "Ade.RunSystem.C110_one_at_a_time_partial",
    "Ade.RunSystem.C110_best_differs",
    "Ade.RunSystem.C110_uniform"
   ],
   "note": "The code disagrees: base and others are drawn from the population as it is when a challenge is issued, which with concurrent evaluations lacks the results of the challenges in progress. C110_best_differs is a witness with the base of DE/best/1/bin, using the sampler's model. What holds: the populations are equal when the choices do not depend on the population, and when challenges are issued one at a time; with a fully random base every choice is equally likely in any state of the population (C110_uniform), so only its outcome differs."
  },
  {
   "property": "C111",
   "status": "partial",
   "theorems": [
    "Ade.RunSystem.C111_no_overlap",
    "Ade.RunSystem.C111_targets",
    "Ade.RunSystem.C111_between_generations",
    "Ade.RunSystem.C111_goes_on_partial",
    "Ade.RunSystem.C111_bounded",
    "Ade.RunSystem.C111_ends_partial",
    "Ade.RunSystem.C111_blocked_never_ends",
    "Ade.RunSystem.C111_nothing_reported",
    "Ade.RunSystem.C111_shutdown_ends",
    "Ade.RunSystem.C111_failure_ends",
    "Ade.RunSystem.C111_nothing_after_end"
   ],
   "note": "The code disagrees: after an exception in History.add, which leaves its lock acquired (C39), waitForReports waits forever, and shutdown does not end the run (C111_blocked_never_ends). Without that exception every run ends, from any state in any of its executions (C111_ends_partial, C111_bounded)."
  },
  {
   "property": "C112",
   "status": "partial",
   "theorems": [
    "Ade.Options.C112_consulted_partial",
    "Ade.Options.C112_uniform_ignored"
   ],
   "note": "The code disagrees for the option `uniform`, documented to select the way in which the population is initialized: it is accepted and never read (C112_uniform_ignored). All other documented options are consulted (C112_consulted_partial)."
  },
  {
   "property": "C113",
   "status": "partial",
   "theorems": [
    "Ade.Container.C113_get",
    "Ade.Container.C113_set",
    "Ade.Container.C113_set_is_assign",
    "Ade.Container.C113_refused_partial",
    "Ade.Container.C113_ghost",
    "Ade.Container.C113_ghost_marked",
    "Ade.Container.C113_contains",
    "Ade.Container.C113_members_contained",
    "Ade.Container.C113_individuals_partial",
    "Ade.Container.C113_individuals_other"
   ],
   "note": "The code disagrees in two points. An assignment with too large an index raises IndexError after the individual has been added to the history and marked as a member (C113_ghost, C113_ghost_marked). `individuals` with one index returns the individual and not a list, and with too large an index it returns None (C113_individuals_other). The rest is proved in full."
  },
  {
   "property": "C114",
   "status": "partial",
   "theorems": [
    "Ade.Session.C114_called_again",
    "Ade.Session.C114_undisturbed_partial",
    "Ade.Session.C114_settled_returned",
    "Ade.Session.C114_settled_shutdown",
    "Ade.Session.C114_improves_partial",
    "Ade.Session.C114_disturbed"
   ],
   "note": "The code disagrees in two points. Calling an object again issues no challenge at all, because its flag `running` stays False (C114_called_again). A challenge that was waiting for locks when its object was shut down releases all locks later, also those of another object that is running by then (C114_disturbed). Otherwise, when no challenge of the first object is waiting for locks and those in progress hold their targets, the property holds for a second object (C114_undisturbed_partial, C114_improves_partial, C114_settled_returned, C114_settled_shutdown)."
  },
  {
   "property": "C115",
   "status": "partial",
   "theorems": [
    "Ade.QueueRunner.C115_one_by_one_partial",
    "Ade.QueueRunner.C115_afterwards",
    "Ade.QueueRunner.C115_tasks",
    "Ade.QueueRunner.C115_repeated",
    "Ade.QueueRunner.C115_aborted"
   ],
   "note": "The code disagrees: shutdown forgets the queue only when the queue has been shut down, so each call made before that shuts the queue down again (C115_repeated, for any number of calls); in the battery example this happens whenever a run is aborted, because each evaluation of None calls shutdown (C115_aborted). Proved for calls that do not overlap (C115_one_by_one_partial) and for everything after the first shutdown has ended (C115_afterwards); the tasks are as stated (C115_tasks, C115_afterwards)."
  },
  {
   "property": "C116",
   "status": "partial",
   "theorems": [
    "Ade.ExecText.C116_whole_lines_partial",
    "Ade.ExecText.C116_blank",
    "Ade.ExecText.C116_cut",
    "Ade.ExecText.C116_two_lines",
    "Ade.ExecText.C116_written"
   ],
   "note": "The code disagrees: the first piece of a line is taken for the answer, and the second piece for the answer to the next command (C116_cut); two lines in one piece are taken for one answer, which is no number (C116_two_lines). Proved for lines received one by one, with any line ends around them, and calls made as in C98 (C116_whole_lines_partial); pieces of line ends only are ignored (C116_blank)."
  },
  {
   "property": "C117",
   "status": "partial",
   "theorems": [
    "Ade.ExecText.C117_each_once_partial",
    "Ade.ExecText.C117_waits_for_ever",
    "Ade.ExecText.C117_in_turn"
   ],
   "note": "The code disagrees with the last sentence: a call after the shutdown, and a second shutdown of the pool, wait for a runner for ever (C117_waits_for_ever). The rest is proved (C117_each_once_partial). That shutting down a runner does not stop its program is C98_shutdown_without_effect."
  },
  {
   "property": "C118",
   "status": "partial",
   "theorems": [
    "Ade.Resume.C118_bounded_partial",
    "Ade.Resume.C118_same_hash",
    "Ade.Resume.C118_blocks",
    "Ade.Resume.C118_new_bounds"
   ],
   "note": "The code disagrees: the map from hashes of members to their records is saved, but the hashes differ in the next process, and with new bounds, so that a member that is replaced after loading leaves its record protected for ever (C118_new_bounds). For every capacity there is a life of a population of one member that ends with a history that raises and is blocked (C118_blocks). Proved: after S loadings at most (S+1)*Np records are protected, and everything works while that is less than the capacity (C118_bounded_partial); with the same hash function and unmoved members, loading changes nothing (C118_same_hash)."
  },
  {
   "property": "C119",
   "status": "partial",
   "theorems": [
    "Ade.ParamBounds.C119_constructor",
    "Ade.ParamBounds.C119_load_partial",
    "Ade.ParamBounds.C119_one_pair",
    "Ade.ParamBounds.C119_no_members",
    "Ade.ParamBounds.C119_exchanged"
   ],
   "note": "The code disagrees: only the constructor counts the bounds. A single pair given to load is used for all parameters silently (C119_one_pair); without members load accepts any number, and nothing can be limited or scaled afterwards (C119_no_members); exchanged bounds are accepted, and limiting makes all values equal then (C119_exchanged). Proved for the constructor (C119_constructor), and for load with any number of bounds other than one (C119_load_partial)."
  },
  {
   "property": "C120",
   "status": "partial",
   "theorems": [
    "Ade.Summary.C120_empty",
    "Ade.Summary.C120_range_partial",
    "Ade.Summary.C120_nan_first",
    "Ade.Summary.C120_times",
    "Ade.Summary.C120_average",
    "Ade.Summary.C120_number_partial",
    "Ade.Summary.C120_number_aborted",
    "Ade.Summary.C120_shown",
    "Ade.Summary.C120_scores"
   ],
   "note": "The code disagrees: the number printed is the size wanted, not that of the population, also after an aborted setup (C120_number_aborted); if the first member's score is NaN both ends of the range are NaN (C120_nan_first). Proved: the number after a complete setup, the range if the first score is a number, the average (NaN exactly if no member has a time) and the members shown."
  },
  {
   "property": "C121",
   "status": "proved",
   "theorems": [
    "Ade.LggMain.C121_arguments",
    "Ade.LggMain.C121_table",
    "Ade.LggMain.C121_starred",
    "Ade.LggMain.C121_no_table",
    "Ade.LggMain.C121_empty_log",
    "Ade.LggMain.C121_individuals",
    "Ade.LggMain.C121_unreadable"
   ],
   "note": "End to end, from the printing of individuals (C79) over reading (C80), selecting (C82, C65), trimming (C59) to the table (C83). C121_empty_log says how it ends for a log without entries: a TypeError with patterns, a traceback without."
  },
  {
   "property": "C122",
   "status": "proved",
   "theorems": [
    "Ade.Registering.C122_registered",
    "Ade.Registering.C122_adding",
    "Ade.Registering.C122_batches",
    "Ade.Registering.C122_last_delivered",
    "Ade.Registering.C122_joins",
    "Ade.Registering.C122_later_batches"
   ],
   "note": "As in C48, an abort, a failing callback or a failing complaint handler ends the calls."
  },
  {
   "property": "C123",
   "status": "partial",
   "theorems": [
    "Ade.ExampleRun.C123_conduct",
    "Ade.ExampleRun.C123_size",
    "Ade.ExampleRun.C123_stops_iff",
    "Ade.ExampleRun.C123_stops_partial",
    "Ade.ExampleRun.C123_hangs",
    "Ade.ExampleRun.C123_uniform_ignored",
    "Ade.ExampleRun.C123_saved",
    "Ade.ExampleRun.C123_short_name",
    "Ade.ExampleRun.C123_defaults"
   ],
   "note": "The code disagrees: if the data cannot be had, the crossover rate is impossible or F is not a list of at least two numbers, the failure is printed and the program goes on waiting (C123_hangs); --uniform has no effect (C123_uniform_ignored); a population is not saved to a file with a name of one character, though only '-' is said to mean none (C123_short_name). Proved: what differential evolution is performed with, the size, exactly when the program ends, and when it saves."
  },
  {
   "property": "C124",
   "status": "partial",
   "theorems": [
    "Ade.ConstraintSets.C124_installed",
    "Ade.ConstraintSets.C124_single",
    "Ade.ConstraintSets.C124_refused",
    "Ade.ConstraintSets.C124_list",
    "Ade.ConstraintSets.C124_none",
    "Ade.ConstraintSets.C124_shared_default",
    "Ade.ConstraintSets.C124_container",
    "Ade.ConstraintSets.C124_generator",
    "Ade.ConstraintSets.C124_isolated",
    "Ade.ConstraintSets.C124_length",
    "Ade.ConstraintSets.C124_no_container",
    "Ade.ConstraintSets.C124_names",
    "Ade.ConstraintSets.C124_names_list",
    "Ade.ConstraintSets.C124_names_left_out"
   ],
   "note": "The code disagrees: a list given to the constructor is kept by reference, so that functions appended to it later are enforced (C124_list); a generator is used up by the first combination that passes and nothing is enforced afterwards (C124_generator); populations made without constraints share one list, so that appending to the attribute of one adds a constraint to all (C124_shared_default); a Constraints object whose setup appends functions cannot be made (C124_no_container) and names given as a list make every check an error (C124_names_list). Proved: exactly what is enforced at any time for functions, lists, containers and setConstraints, and that populations do not affect each other otherwise."
  },
  {
   "property": "C125",
   "status": "partial",
   "theorems": [
    "Ade.LineFit.C125_best",
    "Ade.LineFit.C125_defined",
    "Ade.LineFit.C125_exact",
    "Ade.LineFit.C125_order",
    "Ade.LineFit.C125_units",
    "Ade.LineFit.C125_perfect",
    "Ade.LineFit.C125_half",
    "Ade.LineFit.C125_text"
   ],
   "note": "For positive scores. The code disagrees for a best score of zero: its weight is 0/0, and there is no line although the records may lie on one (C125_perfect). Least squares by numpy are an external contract, computed exactly."
  },
  {
   "property": "C126",
   "status": "partial",
   "theorems": [
    "Ade.Correlation.C126_coefficient",
    "Ade.Correlation.C126_range",
    "Ade.Correlation.C126_line",
    "Ade.Correlation.C126_symmetric",
    "Ade.Correlation.C126_units",
    "Ade.Correlation.C126_defined",
    "Ade.Correlation.C126_each_pair",
    "Ade.Correlation.C126_order_partial",
    "Ade.Correlation.C126_constant",
    "Ade.Correlation.C126_strongest_partial"
   ],
   "note": "The order is proved if every parameter varies. The code disagrees otherwise: the coefficient is NaN, which list.sort cannot order; with four parameters of which the second never changes, the first pair shown is always one without a coefficient and the last two parameters always come last, however correlated (C126_constant). np.corrcoef and list.sort of CPython up to 3.12, for fewer than 64 pairs, are external contracts, written out."
  },
  {
   "property": "C127",
   "status": "partial",
   "theorems": [
    "Ade.GpMain.C127_answers",
    "Ade.GpMain.C127_settles",
    "Ade.GpMain.C127_parent_gone",
    "Ade.GpMain.C127_served",
    "Ade.GpMain.C127_ends_iff",
    "Ade.GpMain.C127_end_of_input",
    "Ade.GpMain.C127_junk",
    "Ade.GpMain.C127_not_compiled"
   ],
   "note": "The code disagrees in three points: at the end of its input the program prints the last value for ever (C127_end_of_input), as the result of scanf is not looked at; the same at a text that is not a number (C127_junk); and if it is not there or does not answer, no evaluation and so the example never ends (C127_not_compiled; C127_ends_iff for when it does). The rest is proved in general. Numbers, gp and isinf are parameters (single precision is not modelled)."
  },
  {
   "property": "C128",
   "status": "partial",
   "theorems": [
    "Ade.Format.C128_general",
    "Ade.Format.C128_zero",
    "Ade.Format.C128_relative",
    "Ade.Format.C128_exact",
    "Ade.Format.C128_order",
    "Ade.Format.C128_stable",
    "Ade.Format.C128_fixed",
    "Ade.Format.C128_fixed_order",
    "Ade.Format.C128_fixed_zero",
    "Ade.Format.C128_readable",
    "Ade.Format.C128_width",
    "Ade.Format.C128_aligned",
    "Ade.Format.C128_best_shown_once",
    "Ade.Format.C128_too_wide",
    "Ade.Format.C128_small_scores"
   ],
   "note": "The code disagrees in two points: a small negative value takes eleven characters and shifts the columns to its right (C128_too_wide), so alignment is proved for values that are not negative (C128_aligned); and scores are printed with four decimals whatever their size, so that those below 0.00005 are read as zero (C128_fixed_zero) and the grepper leaves out entries within its ratio (C128_small_scores); the best individual is shown once if its score is at least 0.025 (C128_best_shown_once). The rest is proved in general. Numbers are rational: a negative zero is not covered; the reader of numbers is the one of specs files."
  },
  {
   "property": "C129",
   "status": "proved",
   "theorems": [
    "Ade.LogNumbers.C129_table",
    "Ade.LogNumbers.C129_final",
    "Ade.LogNumbers.C129_head"
   ],
   "note": "Scores are finite and not negative, values are zero or of a magnitude between 1e-99 and 1e99, names of at most 100 characters.  The approximations are those of the formats (C128)."
  },
  {
   "property": "C130",
   "status": "proved",
   "theorems": [
    "Ade.Single.C130_is_single",
    "Ade.Single.C130_nearest",
    "Ade.Single.C130_exact",
    "Ade.Single.C130_infinite",
    "Ade.Single.C130_accuracy",
    "Ade.Single.C130_records",
    "Ade.Single.C130_order",
    "Ade.Single.C130_order_not_exact",
    "Ade.Single.C130_tie"
   ],
   "note": "C130_is_single shows that the conversion meets what C36-C44 assume of it.  C130_order_not_exact: scores that are equal in single precision may be in the wrong order, since a new score is compared in double precision with the rounded ones."
  },
  {
   "property": "C131",
   "status": "partial",
   "theorems": [
    "Ade.Eviction.C131_lower_row_goes_partial",
    "Ade.Eviction.C131_filling_record_stays",
    "Ade.Eviction.C131_best_goes_worst_stays"
   ],
   "note": "The code does not do what is documented: the finder removes the lower row of a closest pair whatever the scores.  C131_best_goes_worst_stays is a run in which the best record is removed and the worst stays; C131_filling_record_stays shows that the record that filled the history is never removed while two records are not of members.  What holds is C131_lower_row_goes_partial."
  },
  {
   "property": "C132",
   "status": "proved",
   "theorems": [
    "Ade.FRounded.C132_range_within_limits",
    "Ade.FRounded.C132_draws_in_range",
    "Ade.FRounded.C132_stays_above_critical",
    "Ade.FRounded.C132_reaches_limit",
    "Ade.FRounded.C132_ups_restore",
    "Ade.FRounded.C132_actual_factors"
   ],
   "note": "The unrounded model is the special case of exact products (FRounded.exact_down, FRounded.exact_up).  Overflow and underflow are left out; the critical value and the scale-up factors are any floats with the properties of the actual ones (FRounded.Good, C132_actual_factors)."
  },
  {
   "property": "C133",
   "status": "partial",
   "theorems": [
    "Ade.Sampler.C133_above_one_rejected_partial",
    "Ade.Sampler.C133_negative_accepted",
    "Ade.Sampler.C133_negative_worst",
    "Ade.Sampler.C133_negative_index_error"
   ],
   "note": "The code rejects only numbers above one.  A negative number down to -0.5 is accepted and gives the best candidate or one of the worst ones (C133_negative_accepted, C133_negative_worst); further down some draws end in an IndexError (C133_negative_index_error).  What holds is C133_above_one_rejected_partial."
  },
  {
   "property": "C134",
   "status": "partial",
   "theorems": [
    "Ade.SamplerRounded.C134_returns_allowed_partial",
    "Ade.SamplerRounded.C134_rank_bound",
    "Ade.SamplerRounded.C134_index_error",
    "Ade.SamplerRounded.C134_error_rare"
   ],
   "note": "Holds for settings up to 1 - 2^-26 (C134_returns_allowed_partial, C134_rank_bound).  With a setting closer to one, such as 1 - 2^-30, there are draws for which the variate is rounded to 1.0 and the position is one past the end (C134_index_error), in a share of at most 6 (1 - setting) of all cases (C134_error_rare)."
  },
  {
   "property": "C135",
   "status": "partial",
   "theorems": [
    "Ade.StatusQuo.C135_chance_partial",
    "Ade.StatusQuo.C135_larger_population",
    "Ade.StatusQuo.C135_more_improvements",
    "Ade.StatusQuo.C135_documented",
    "Ade.StatusQuo.C135_no_improvement_never"
   ],
   "note": "All of it holds except the last part, which is documented for `replacement`: without improvements the status quo is never kept after the first generation (C135_no_improvement_never)."
  },
  {
   "property": "C136",
   "status": "partial",
   "theorems": [
    "Ade.RunLoop.C136_range_bound_partial",
    "Ade.RunLoop.C136_single_bound_partial",
    "Ade.RunLoop.C136_default_bound",
    "Ade.RunLoop.C136_hangs_around",
    "Ade.RunLoop.C136_fixed_never_stops"
   ],
   "note": "The bounds hold for adaptive settings that start above the critical value. The documentation of `bitterEnd` makes no such condition: a run that does not adapt its mutation range is never stopped, however unsuccessful (C136_fixed_never_stops)."
  },
  {
   "property": "C137",
   "status": "partial",
   "theorems": [
    "Ade.FManager.C137_limit_means_no_reduction",
    "Ade.FManager.C137_same_speed",
    "Ade.FManager.C137_fixed_no_limit"
   ],
   "note": "The first part is proved. The second and third, taken from the documentation, are refuted: a single value shrinks exactly as fast as the lower end of a range (C137_same_speed), and without adaptation nothing is ever reported (C137_fixed_no_limit)."
  },
  {
   "property": "C138",
   "status": "partial",
   "theorems": [
    "Ade.Generation.C138_lost_partial",
    "Ade.Generation.C138_counts_as_equivalent",
    "Ade.Generation.C138_failed_generation_kept",
    "Ade.Generation.C138_failing_run_goes_on"
   ],
   "note": "True of challenges lost by score. Contrary to the documentation of `msgRatio`, a challenger without a usable score counts as equivalent to its target: each adds a tenth, so a generation of nothing but failed evaluations keeps the status quo for certain, and a run of such generations goes on to its maximum."
  },
  {
   "property": "C139",
   "status": "partial",
   "theorems": [
    "Ade.History.C139_documented_fresh",
    "Ade.History.C139_documented_exists",
    "Ade.History.C139_same_appending_partial",
    "Ade.History.C139_same_evicted_partial",
    "Ade.History.C139_differs_on_collision",
    "Ade.History.C139_not_the_same",
    "Ade.History.C139_order_ignored",
    "Ade.History.C139_optimized"
   ],
   "note": "Proved: the documented loop always finds an existing row not in use; both agree while the rows in use are the first ones, and after one record was removed from a full history (of 2 or at least 4 records). False otherwise: where the optimized search picks a row in use (C36) the loop would not have, and elsewhere they may pick different free rows."
  },
  {
   "property": "C140",
   "status": "partial",
   "theorems": [
    "Ade.PairSampling.C140_uniform",
    "Ade.PairSampling.C140_missed",
    "Ade.PairSampling.C140_examined_at_most",
    "Ade.PairSampling.C140_full_history",
    "Ade.PairSampling.C140_round_mean",
    "Ade.PairSampling.C140_ends",
    "Ade.PairSampling.C140_all_partial",
    "Ade.PairSampling.C140_sampled_from_142",
    "Ade.PairSampling.C140_limit_1000"
   ],
   "note": "All true but for the number of records: all pairs are examined up to 141 records, contrary to the documentation, which says that pairs are sampled for more than 142. Chances are stated by counting the sequences of draws of any length; the number of draws in a round is arbitrary in most theorems, so the rounding in its computation does not matter. In a full history of default size any given pair is examined in less than 1.1 % of all cases."
  },
  {
   "property": "C141",
   "status": "partial",
   "theorems": [
    "Ade.Specs.C141_line_partial",
    "Ade.Specs.C141_document_partial",
    "Ade.Specs.C141_glued",
    "Ade.Specs.C141_behind_name",
    "Ade.Specs.C141_behind_any_name"
   ],
   "note": "Proved for whole documents and comments that start a line, stand on a line of hyphens, or are separated by white space from at least two words before them. Otherwise false: right behind a value a comment becomes part of the value; behind a name alone it makes the name an attribute (with an empty list), so that a dict cannot be defined."
  },
  {
   "property": "C142",
   "status": "partial",
   "theorems": [
    "Ade.TrueScores.C142_setup",
    "Ade.TrueScores.C142_run",
    "Ade.TrueScores.C142_setup_and_run",
    "Ade.TrueScores.C142_load_partial",
    "Ade.TrueScores.C142_never_corrected",
    "Ade.TrueScores.C142_refined_bounds"
   ],
   "note": "Proved for setup, for runs and for loading without bounds or with bounds that include all members. False for loading with refined bounds that exclude a member: its values are changed, its score is not. If that score is lower than any within the new bounds, the member is never replaced, in any run, and is presented as the best though its values have a worse score than others evaluated."
  },
  {
   "property": "C143",
   "status": "partial",
   "theorems": [
    "Ade.RaisingConstraint.C143_ends",
    "Ade.RaisingConstraint.C143_last_generation",
    "Ade.RaisingConstraint.C143_nothing_after_end",
    "Ade.RaisingConstraint.C143_next_run_blocked"
   ],
   "note": "Proved: the run ends (at once, or when all challenges of the generation have been issued), without a final report, and no member changes after its end. False for the code: the lock of the target stays acquired, since the statement releasing it is skipped; if no other challenge is waiting for locks, another run on the population does not complete its first generation, however long it runs."
  },
  {
   "property": "C144",
   "status": "partial",
   "theorems": [
    "Ade.EnterKey.C144_enter_stops_partial",
    "Ade.EnterKey.C144_order",
    "Ade.EnterKey.C144_loaded_not_aborted",
    "Ade.EnterKey.C144_loaded_goes_on",
    "Ade.EnterKey.C144_restart_forgets"
   ],
   "note": "Proved for populations made by the constructor and for all objects for differential evolution, in programs that do not disable or restart the keyboard and do not wipe out a population. False for loaded populations: load registers nothing and shutdown does not abort the population, contrary to its documentation, so the Enter key ends the run but the evaluation function is never called with None and later runs are not refused (C144_loaded_not_aborted, for every program). restart forgets whatever was registered (C144_restart_forgets)."
  },
  {
   "property": "C145",
   "status": "partial",
   "theorems": [
    "Ade.Reporter.C145_one_partial",
    "Ade.Reporter.C145_failed",
    "Ade.Reporter.C145_forced",
    "Ade.Reporter.C145_two",
    "Ade.Reporter.C145_silent"
   ],
   "note": "Proved for reports of individuals with a score. A failed evaluation is shown as %, not as documented as #, which is shown for a score that is not a number or infinite (C145_failed). A forced report shows ! although the individual is no better than the best, which stays the best (C145_forced)."
  },
  {
   "property": "C146",
   "status": "partial",
   "theorems": [
    "Ade.ExamplePlots.C146_voc_partial",
    "Ade.ExamplePlots.C146_voc_few",
    "Ade.ExamplePlots.C146_voc_line",
    "Ade.ExamplePlots.C146_thermistor_partial",
    "Ade.ExamplePlots.C146_thermistor_falls",
    "Ade.ExamplePlots.C146_thermistor_gap"
   ],
   "note": "The code disagrees in two points. With fewer than three readings the battery example's report raises an exception, from the search for the greatest residual after the second, whose result is not used (C146_voc_few). With a resistance of ten or less the curve of a thermistor starts with a gap (C146_thermistor_gap). Real numbers; yampex and matplotlib are not modelled."
  },
  {
   "property": "C147",
   "status": "proved",
   "theorems": [
    "Ade.RatioRounded.C147_none_iff",
    "Ade.RatioRounded.C147_zero_margin",
    "Ade.RatioRounded.C147_nearest",
    "Ade.RatioRounded.C147_monotone",
    "Ade.RatioRounded.C147_two_percent",
    "Ade.RatioRounded.C147_edge",
    "Ade.RatioRounded.C147_exact"
   ],
   "note": "Overflow and underflow are not modelled. C147_edge shows that the margin below the significant improvement is needed: two whole scores with an improvement just short of two percent have the ratio one. C147_exact says that the model of C47 is the same function without rounding."
  },
  {
   "property": "C148",
   "status": "partial",
   "theorems": [
    "Ade.MessageText.C148_sub",
    "Ade.MessageText.C148_too_few",
    "Ade.MessageText.C148_counted",
    "Ade.MessageText.C148_message_partial",
    "Ade.MessageText.C148_row_lost",
    "Ade.MessageText.C148_stray"
   ],
   "note": "Proved for texts without escaped braces. A pair of escaped braces is counted as a field, so that a blank line or row of hyphens asked for after the text is lost (C148_row_lost, for all such texts). A text without arguments is written as it is when alone or after 0, but after -1, said to be the same, it is formatted: a stray brace makes the call raise (C148_stray). str.format is an external contract, for fields that are numbered automatically."
  },
  {
   "property": "C149",
   "status": "partial",
   "theorems": [
    "Ade.Kinds.C149_given",
    "Ade.Kinds.C149_assigned_partial",
    "Ade.Kinds.C149_cut_off",
    "Ade.Kinds.C149_arithmetic",
    "Ade.Kinds.C149_limit",
    "Ade.Kinds.C149_challenger_partial",
    "Ade.Kinds.C149_challenger_cut",
    "Ade.Kinds.C149_equal_other_key"
   ],
   "note": "An individual made of a list of nothing but whole numbers holds an array of integers: a float assigned to one of its items is cut off towards zero (C149_cut_off, for all such lists and floats). Assignment is proved otherwise. Challengers are proved to have the documented values unless the mutation coefficient and the base and both others are all of whole numbers; then the target's values are cut off (C149_challenger_cut). Equal individuals of different kinds have different keys (C149_equal_other_key, for all whole numbers below 2^52, not all zero)."
  },
  {
   "property": "C150",
   "status": "partial",
   "theorems": [
    "Ade.SpecNames.C150_document_partial",
    "Ade.SpecNames.C150_no_file",
    "Ade.SpecNames.C150_method_found",
    "Ade.SpecNames.C150_add_taken",
    "Ade.SpecNames.C150_dict_taken",
    "Ade.SpecNames.C150_get_taken",
    "Ade.SpecNames.C150_ds_dropped",
    "Ade.SpecNames.C150_ds_dict_lost"
   ],
   "note": "Proved for all documents and lookups without the six names dict_start, dict_add, dict_done, add, get and ds. Those are used by the object itself: a specification named add makes every later one fail with a TypeError, one named like a dict method every later dict, one named get every lookup; one named ds is lost at the next line of hyphens; and looking up the name of a method that is no specification gives the method (all proved in general). Names with leading double underscores are left out of the model."
  },
  {
   "property": "C151",
   "status": "partial",
   "theorems": [
    "Ade.Items.C151_read_partial",
    "Ade.Items.C151_written",
    "Ade.Items.C151_not_written",
    "Ade.Items.C151_iterated",
    "Ade.Items.C151_numpy_integer"
   ],
   "note": "Proved in full for reading with Python's integers and names, and for writing. Reading with an integer computed by numpy always raises a ValueError, as it is taken for a name, although writing with it works (C151_numpy_integer)."
  },
  {
   "property": "C152",
   "status": "partial",
   "theorems": [
    "Ade.FanControl.C152_transitions",
    "Ade.FanControl.C152_logged",
    "Ade.FanControl.C152_required",
    "Ade.FanControl.C152_switched_on",
    "Ade.FanControl.C152_hysteresis",
    "Ade.FanControl.C152_steady",
    "Ade.FanControl.C152_hot_partial",
    "Ade.FanControl.C152_as_hot",
    "Ade.FanControl.C152_kept_on",
    "Ade.FanControl.C152_below_low",
    "Ade.FanControl.C152_offline"
   ],
   "note": "Proved except for two sentences: since the hysteresis is added to the inside temperature before it is compared, a fan that is on is asked for below INSIDE_MIN and when it is hotter outside (C152_kept_on, C152_below_low); and at equal temperatures a fan that is off is not asked for, however hot it is (C152_as_hot; C152_hot_partial for a cooler outside)."
  },
  {
   "property": "C153",
   "status": "proved",
   "theorems": [
    "Ade.Thermometer.C153_filter",
    "Ade.Thermometer.C153_first",
    "Ade.Thermometer.C153_step_response",
    "Ade.Thermometer.C153_between",
    "Ade.Thermometer.C153_time_constant",
    "Ade.Thermometer.C153_increasing",
    "Ade.Thermometer.C153_thermistor",
    "Ade.Thermometer.C153_left_out",
    "Ade.Thermometer.C153_averages",
    "Ade.Thermometer.C153_count",
    "Ade.Thermometer.C153_channels"
   ],
   "note": "With real numbers. The part of the first voltage that the filter has not settled to is stated exactly and is below 2^(-222) with the settings of the program."
  },
  {
   "property": "C154",
   "status": "partial",
   "theorems": [
    "Ade.GpSingle.C154_accurate",
    "Ade.GpSingle.C154_order_partial",
    "Ade.GpSingle.C154_at_minimum",
    "Ade.GpSingle.C154_below_minimum",
    "Ade.GpSingle.C154_lowest_partial"
   ],
   "note": "The code disagrees with the last part: points near the minimum have lower values than the minimum itself, down to 2.99995 as in the recorded log (C154_below_minimum), but none below 2.988 (C154_lowest_partial). The error is at most 0.4 percent (C154_accurate)."
  },
  {
   "property": "C155",
   "status": "proved",
   "theorems": [
    "Ade.RelationsRounded.C155_accepted",
    "Ade.RelationsRounded.C155_satisfied",
    "Ade.RelationsRounded.C155_answered",
    "Ade.RelationsRounded.C155_no_tolerance",
    "Ade.RelationsRounded.C155_wider",
    "Ade.RelationsRounded.C155_edge"
   ],
   "note": "For every rounding to nearest with 53 bits (no overflow or underflow); round53 is one. C155_edge shows that on the edge the answer differs from that of exact arithmetic, in both directions."
  },
  {
   "property": "C156",
   "status": "proved",
   "theorems": [
    "Ade.QueryRounded.C156_none_left_out",
    "Ade.QueryRounded.C156_returned",
    "Ade.QueryRounded.C156_ratio_one"
   ],
   "note": "Float32 arithmetic of Verif/Model/Single. The case of a best score of zero is in C61. C156_ratio_one is for normal numbers, not for scores below 2^-126."
  },
  {
   "property": "C157",
   "status": "proved",
   "theorems": [
    "Ade.UnityRounded.C157_within",
    "Ade.UnityRounded.C157_order",
    "Ade.UnityRounded.C157_accurate",
    "Ade.UnityRounded.C157_round_trip",
    "Ade.UnityRounded.C157_bounds_starred",
    "Ade.UnityRounded.C157_stars"
   ],
   "note": "For every rounding to nearest with 53 bits (no overflow or underflow), and bounds of which the lower is below the upper."
  },
  {
   "property": "C158",
   "status": "proved",
   "theorems": [
    "Ade.ChallengeRounded.C158_parameter_form",
    "Ade.ChallengeRounded.C158_agreement",
    "Ade.ChallengeRounded.C158_units",
    "Ade.ChallengeRounded.round53_units"
   ],
   "note": "For every rounding to nearest with 53 bits (no overflow or underflow); `C158_units` for every rounding that commutes with powers of two, which rounding halves to even does (`round53_units`)."
  },
  {
   "property": "C159",
   "status": "proved",
   "theorems": [
    "Ade.DifferenceRounded.C159_difference",
    "Ade.DifferenceRounded.C159_zero_iff",
    "Ade.DifferenceRounded.C159_closest",
    "Ade.DifferenceRounded.factor_close",
    "Ade.DifferenceRounded.C159_scaling",
    "Ade.DifferenceRounded.C159_scaling_accurate",
    "Ade.DifferenceRounded.C159_call"
   ],
   "note": "For every rounding to nearest with 53 bits (no overflow or underflow). The scaling of the columns is computed with rounding (`C159_scaling`) and is the inverse of the variance plus 10^-20 as closely as `C159_scaling_accurate` says; the difference is judged with the scaling as computed. The penalty is any positive number."
  },
  {
   "property": "C160",
   "status": "proved",
   "theorems": [
    "Ade.ReplacementRounded.C160_score",
    "Ade.ReplacementRounded.C160_score_exact",
    "Ade.ReplacementRounded.C160_decision",
    "Ade.ReplacementRounded.C160_chance"
   ],
   "note": "For every rounding to nearest with 53 bits (no overflow or underflow), and `np.pi` and `np.sin` with errors of at most 2^-52."
  },
  {
   "property": "C161",
   "status": "proved",
   "theorems": [
    "Ade.MachineRandom.C161_crossover",
    "Ade.MachineRandom.C161_always",
    "Ade.MachineRandom.C161_mutation_factor",
    "Ade.MachineRandom.C161_status_quo"
   ],
   "note": "Chances are numbers of cases out of all 2^53 for each random number. The numbers of a generator are taken to be independent; for every rounding to nearest with 53 bits (no overflow or underflow)."
  },
  {
   "property": "C162",
   "status": "proved",
   "theorems": [
    "Ade.SamplerRounded.C162_best_share",
    "Ade.SamplerRounded.C162_each_share",
    "Ade.SamplerRounded.C162_as_in_theory",
    "Ade.SamplerRounded.C162_sample"
   ],
   "note": "Chances are numbers of cases out of all 2^106 pairs of random numbers. No overflow or underflow of floats. A bias closer to one than 2^-26 can raise an IndexError (C134)."
  },
  {
   "property": "C163",
   "status": "partial",
   "theorems": [
    "Ade.WideBounds.C163_limit",
    "Ade.WideBounds.C163_limit_one_sided",
    "Ade.WideBounds.C163_moderate_partial",
    "Ade.WideBounds.C163_infinite",
    "Ade.WideBounds.C163_too_far_apart",
    "Ade.WideBounds.C163_limit_too_large",
    "Ade.WideBounds.C163_fixed"
   ],
   "note": "Proved for bounds below 1/200 of the largest float (C163_moderate_partial; there the values are the same as without overflow). The code does not have the property otherwise: with an infinite bound all values ever proposed are infinite or NaN (C163_infinite); with bounds whose difference is too large for a float all are the lower bound or NaN (C163_too_far_apart); with bounds more than half the largest float, limiting gives NaN (C163_limit_too_large)."
  },
  {
   "property": "C164",
   "status": "partial",
   "theorems": [
    "Ade.LineFitRounded.C164_best_partial",
    "Ade.LineFitRounded.C164_order_partial",
    "Ade.LineFitRounded.C164_accurate_partial",
    "Ade.LineFitRounded.C164_all_partial",
    "Ade.LineFitRounded.C164_too_large",
    "Ade.LineFitRounded.C164_perfect"
   ],
   "note": "Proved for positive scores of which twice the value does not overflow; the accuracy also needs a best score of at least 2^-126 and scores no more than a factor of 2^120 apart. The code does not have the property otherwise: from a best score of about 2^127 on the best record's weight is NaN (C164_too_large), as it is for a best score of zero (C164_perfect)."
  },
  {
   "property": "C165",
   "status": "proved",
   "theorems": [
    "Ade.HelpText.C165_plain",
    "Ade.HelpText.C165_letter",
    "Ade.HelpText.C165_default_told",
    "Ade.HelpText.C165_twice",
    "Ade.HelpText.C165_doubled"
   ],
   "note": "The formatting that argparse does afterwards is not modelled. Replacement fields other than {} are not modelled; no exact form is claimed for them."
  },
  {
   "property": "C166",
   "status": "partial",
   "theorems": [
    "Ade.FigureRounded.C166_once",
    "Ade.FigureRounded.C166_larger_is_better",
    "Ade.FigureRounded.C166_boundaries",
    "Ade.FigureRounded.C166_best_partial",
    "Ade.FigureRounded.C166_equal_scores",
    "Ade.FigureRounded.C166_close_scores"
   ],
   "note": "The best record has the largest marker if the highest score differs from the lowest by one part in 40000 or more. The code does not have this property otherwise: with equal scores nothing is drawn (C166_equal_scores), and of two records with neighbouring float32 scores the better one has the smallest marker (C166_close_scores)."
  },
  {
   "property": "C167",
   "status": "proved",
   "theorems": [
    "Ade.RankRounded.C167_drawn",
    "Ade.RankRounded.C167_not_drawn",
    "Ade.RankRounded.C167_at_most_twice",
    "Ade.RankRounded.C167_larger_is_earlier",
    "Ade.RankRounded.C167_at_seventy_percent",
    "Ade.RankRounded.C167_half",
    "Ade.RankRounded.C167_single"
   ],
   "note": "The number of records is below 2^40, so that the error of the product stays below a thousandth. C167_at_seventy_percent is the concrete pair of cases for exactly 70%."
  },
  {
   "property": "C168",
   "status": "proved",
   "theorems": [
    "Ade.PairRounded.C168_enough",
    "Ade.PairRounded.C168_close",
    "Ade.PairRounded.C168_one_less",
    "Ade.PairRounded.C168_round_mean",
    "Ade.PairRounded.C168_ends"
   ],
   "note": "C168_close has up to 2^48 pairs and C168_round_mean up to 2^46 rows, far more than fit into memory. C168_one_less shows that the difference of one occurs (38 rows, 185 pairs). Chances are stated by counting sequences of draws."
  }
 ]
}