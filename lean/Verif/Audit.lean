import Verif.Props.Agree
import Verif.Props.Announced
import Verif.Props.Anytime
import Verif.Props.BelottiTol
import Verif.Props.BigM
import Verif.Props.Bounding
import Verif.Props.Certificates
import Verif.Props.CommandLine
import Verif.Props.ContTol
import Verif.Props.ContinuousCrash
import Verif.Props.CsvText
import Verif.Props.Deadline
import Verif.Props.DefaultGap
import Verif.Props.Execution
import Verif.Props.Export
import Verif.Props.ExportGaps
import Verif.Props.Feasibility
import Verif.Props.Float
import Verif.Props.FloatAdaptive
import Verif.Props.FloatAdaptiveCont
import Verif.Props.FloatAdaptiveFiles
import Verif.Props.FloatBelotti
import Verif.Props.FloatExport
import Verif.Props.FloatFiles
import Verif.Props.FloatGenerated
import Verif.Props.FloatKnapsack
import Verif.Props.FloatMilp
import Verif.Props.FloatOptim
import Verif.Props.FloatPipeline
import Verif.Props.FloatPipeline2
import Verif.Props.FloatRow
import Verif.Props.FloatRowColumns
import Verif.Props.FloatSort
import Verif.Props.FloatTotal
import Verif.Props.FloatViolations
import Verif.Props.Generator
import Verif.Props.GridValues
import Verif.Props.GurobiTol
import Verif.Props.History
import Verif.Props.Initial
import Verif.Props.Knapsack
import Verif.Props.Log
import Verif.Props.LowerGap
import Verif.Props.Merge
import Verif.Props.Milp
import Verif.Props.NonTermination
import Verif.Props.OrLibText
import Verif.Props.Parsing
import Verif.Props.Partition
import Verif.Props.Progress
import Verif.Props.Refine
import Verif.Props.Reported
import Verif.Props.Reproducible
import Verif.Props.RowMeaning
import Verif.Props.Rows
import Verif.Props.Selection
import Verif.Props.SortingBounds
import Verif.Props.SplitMerge
import Verif.Props.StopReason
import Verif.Props.Tables
import Verif.Props.Tolerance
import Verif.Props.Trajectory
import Verif.Props.Violations
import Verif.Props.ViolationsMem
import Verif.Props.WarmStart
import Verif.Props.Workflow
import Verif.Props.WorkflowTables

/-!
# Axioms of the property theorems

Generated.  The build prints the axioms on which each theorem of MANIFEST.json depends: `propext`,
`Classical.choice` and `Quot.sound`, or fewer.
-/

#print axioms Verif.Props.C01_is_feasible_verdict
#print axioms Verif.Props.C02_check_feasibility_record
#print axioms Verif.Props.C03_tolerance_exact
#print axioms Verif.Props.C04_parse_generated
#print axioms Verif.Props.C04_parsed_data
#print axioms Verif.Props.C05_round1
#print axioms Verif.Props.C06_random_initial_partition
#print axioms Verif.Props.C07_cost_initial_partition
#print axioms Verif.Props.C08_create_first_partition_total
#print axioms Verif.Props.C09_partition_probabilities
#print axioms Verif.Props.C10_subset_rows
#print axioms Verif.Props.C11_partition_relaxation
#print axioms Verif.Props.C12_chance_constraint_count
#print axioms Verif.Props.C12_singletons
#print axioms Verif.Props.C13_quantile_bound
#print axioms Verif.Props.C14_first_iteration_bound
#print axioms Verif.Props.C15_first_bound_improves
#print axioms Verif.Props.C16_pruning_safe
#print axioms Verif.Props.C17_selection
#print axioms Verif.Props.C17_selection_exists
#print axioms Verif.Props.C17_violation_within_tolerance
#print axioms Verif.Props.C17_chance_partial
#print axioms Verif.Props.C17_tolerance_counterexample
#print axioms Verif.Props.C18_incremental_model
#print axioms Verif.Props.C18_last_selection
#print axioms Verif.Props.C18_within_gap
#print axioms Verif.Props.C19_best_incumbent
#print axioms Verif.Props.C20_infeasible_keeps_bound_partial
#print axioms Verif.Props.C20_counterexample
#print axioms Verif.Props.C21_gap_certifies_partial
#print axioms Verif.Props.C21_counterexample
#print axioms Verif.Props.C21_division_by_zero
#print axioms Verif.Props.C21_gap_cases
#print axioms Verif.Props.C22_random_refine_partition
#print axioms Verif.Props.C23_cost_refine_partition
#print axioms Verif.Props.C24_random_cuts_off
#print axioms Verif.Props.C24_cost_cuts_off
#print axioms Verif.Props.C25_random_terminates
#print axioms Verif.Props.C25_cost_terminates
#print axioms Verif.Props.C25_random_diverges
#print axioms Verif.Props.C26_number_of_splits
#print axioms Verif.Props.C27_memory_valid
#print axioms Verif.Props.C28_split_cost_bounds_halves
#print axioms Verif.Props.C29_get_subsets
#print axioms Verif.Props.C30_merge_all
#print axioms Verif.Props.C31_merge_feasible
#print axioms Verif.Props.C31_too_few
#print axioms Verif.Props.C32_chain_counterexample
#print axioms Verif.Props.C32_merge_pairs_partial
#print axioms Verif.Props.C33_sort_subset_costs
#print axioms Verif.Props.C33_find_inf_candidate_counterexample
#print axioms Verif.Props.C33_find_inf_candidate_partial
#print axioms Verif.Props.C34_merge_keeps_cut
#print axioms Verif.Props.C35_bound_kept
#print axioms Verif.Props.C36_costs_aligned
#print axioms Verif.Props.C36_costs_optimal
#print axioms Verif.Props.C37_merge_total
#print axioms Verif.Props.C37_merge_dispatch
#print axioms Verif.Props.C37_can_merge_feasible
#print axioms Verif.Props.C38_z_start
#print axioms Verif.Props.C38_keys_valid_partial
#print axioms Verif.Props.C38_stale_counterexample
#print axioms Verif.Props.C39_naive_valid
#print axioms Verif.Props.C40_continuous_knapsack_exact
#print axioms Verif.Props.C41_underestimates_counterexample
#print axioms Verif.Props.C41_never_underestimates_partial
#print axioms Verif.Props.C42_belotti_valid
#print axioms Verif.Props.C43_song_valid
#print axioms Verif.Props.C44_song_partition_valid
#print axioms Verif.Props.C45_cpp_violations_valid
#print axioms Verif.Props.C46_cpp_equals_python_partial
#print axioms Verif.Props.C46_one_row_counterexample
#print axioms Verif.Props.C47_belotti_le_naive
#print axioms Verif.Props.C47_song_le_naive_partial
#print axioms Verif.Props.C47_song_one_row_counterexample
#print axioms Verif.Props.C47_song_fine_data_counterexample
#print axioms Verif.Props.C48_naive_equivalent
#print axioms Verif.Props.C48_belotti_equivalent
#print axioms Verif.Props.C48_song_equivalent
#print axioms Verif.Props.C49_skipping_is_exact
#print axioms Verif.Props.C50_bounds_bracket_partial
#print axioms Verif.Props.C50_counterexample
#print axioms Verif.Props.C51_feasible_stop_optimal
#print axioms Verif.Props.C51_feasible_stop_near
#print axioms Verif.Props.C52_gap_stop_certifies
#print axioms Verif.Props.C53_terminates_without_merging
#print axioms Verif.Props.C54_counterexample
#print axioms Verif.Props.C54_time_limit_partial
#print axioms Verif.Props.C55_no_internal_error_partial
#print axioms Verif.Props.C55_zero_division
#print axioms Verif.Props.C55_random_accurate_counterexample
#print axioms Verif.Props.C55_continuous_counterexample
#print axioms Verif.Props.C56_remaining
#print axioms Verif.Props.C56_time_limit
#print axioms Verif.Props.C57_milp
#print axioms Verif.Props.C57_belotti_partial
#print axioms Verif.Props.C57_belotti_counterexample
#print axioms Verif.Props.C57_belotti_loss_counterexample
#print axioms Verif.Props.C58_gap_partial
#print axioms Verif.Props.C58_counterexample
#print axioms Verif.Props.C59_reported_partial
#print axioms Verif.Props.C59_counterexample
#print axioms Verif.Props.C60_milp
#print axioms Verif.Props.C60_adaptive
#print axioms Verif.Props.C61_milp_partial
#print axioms Verif.Props.C61_adaptive_counterexample
#print axioms Verif.Props.C61_milp_counterexample
#print axioms Verif.Props.C62_partial
#print axioms Verif.Props.C62_counterexample
#print axioms Verif.Props.C62_accepted
#print axioms Verif.Props.C63_partial
#print axioms Verif.Props.C63_counterexample
#print axioms Verif.Props.C64_format
#print axioms Verif.Props.C64_any_gap
#print axioms Verif.Props.C65_bold
#print axioms Verif.Props.C65_nan_counterexample
#print axioms Verif.Props.C66_bounds_monotone
#print axioms Verif.Props.C67_subset_cost_antitone
#print axioms Verif.Props.C68_cost_refine_keyError_counterexample
#print axioms Verif.Props.C69_parsed_binary_certificates
#print axioms Verif.Props.C70_partial
#print axioms Verif.Props.C70_counterexample
#print axioms Verif.Props.C71_partial
#print axioms Verif.Props.C71_adaptive_partial
#print axioms Verif.Props.C71_counterexample
#print axioms Verif.Props.C72_generated_instances
#print axioms Verif.Props.C72_generated_certificates
#print axioms Verif.Props.C72_sizes_whole
#print axioms Verif.Props.C73_partial
#print axioms Verif.Props.C73_counterexample
#print axioms Verif.Props.C74_instance_names
#print axioms Verif.Props.C74_result_names
#print axioms Verif.Props.C75_least_violated_selected
#print axioms Verif.Props.C76_most_satisfied_selected
#print axioms Verif.Props.C77_deadline_partial
#print axioms Verif.Props.C77_milp_deadline_partial
#print axioms Verif.Props.C77_counterexample
#print axioms Verif.Props.C77_milp_counterexample
#print axioms Verif.Props.C77_milp_no_point
#print axioms Verif.Props.C78_default_gap_partial
#print axioms Verif.Props.C78_counterexample
#print axioms Verif.Props.C78_belotti_counterexample
#print axioms Verif.Props.C79_tolerance
#print axioms Verif.Props.C80_announced_partial
#print axioms Verif.Props.C80_counterexample
#print axioms Verif.Props.C81_stop_reason
#print axioms Verif.Props.C82_reproducible
#print axioms Verif.Props.C83_anytime
#print axioms Verif.Props.C83_more_time_no_worse
#print axioms Verif.Props.C84_no_repeat
#print axioms Verif.Props.C84_merging_returns
#print axioms Verif.Props.C85_never_contradict
#print axioms Verif.Props.C85_adaptive_agree
#print axioms Verif.Props.C85_adaptive_milp_agree
#print axioms Verif.Props.C85_milp_agree
#print axioms Verif.Props.C86_big_m_times
#print axioms Verif.Props.C87_summary_tables
#print axioms Verif.Props.C87_best_in_bold
#print axioms Verif.Props.C87_total
#print axioms Verif.Props.C87_printed_name
#print axioms Verif.Props.C88_same_result
#print axioms Verif.Props.C88_history_partial
#print axioms Verif.Props.C88_last_report
#print axioms Verif.Props.C88_interrupt
#print axioms Verif.Props.C88_rows_bracket
#print axioms Verif.Props.C88_time_counterexample
#print axioms Verif.Props.C89_adaptive_row_partial
#print axioms Verif.Props.C89_main_row_partial
#print axioms Verif.Props.C89_alarm_partial
#print axioms Verif.Props.C89_repaired_partial
#print axioms Verif.Props.C89_stop_counterexample
#print axioms Verif.Props.C89_belotti_counterexample
#print axioms Verif.Props.C90_instances
#print axioms Verif.Props.C90_results
#print axioms Verif.Props.C90_workflow_partial
#print axioms Verif.Props.C90_counterexample
#print axioms Verif.Props.C90_history_names
#print axioms Verif.Props.C90_same_experiments
#print axioms Verif.Props.C90_repository_partial
#print axioms Verif.Props.C90_constants
#print axioms Verif.Props.C90_tables_partial
#print axioms Verif.Props.C91_flags
#print axioms Verif.Props.C91_flags_exact
#print axioms Verif.Props.C91_floor_partial
#print axioms Verif.Props.C91_percentages
#print axioms Verif.Props.C91_verdict_partial
#print axioms Verif.Props.C91_quantile
#print axioms Verif.Props.C91_selected
#print axioms Verif.Props.C91_counterexample
#print axioms Verif.Props.C92_memory_safe
#print axioms Verif.Props.C92_limit
#print axioms Verif.Props.C92_large_counterexample
#print axioms Verif.Props.C92_negative_counterexample
#print axioms Verif.Props.C93_exact_order
#print axioms Verif.Props.C93_acyclic
#print axioms Verif.Props.C93_integer_exact
#print axioms Verif.Props.C93_integer_partial
#print axioms Verif.Props.C93_decides_right
#print axioms Verif.Props.C93_counterexample
#print axioms Verif.Props.C94_run
#print axioms Verif.Props.C94_rounded_points
#print axioms Verif.Props.C94_milp
#print axioms Verif.Props.C95_no_abort_partial
#print axioms Verif.Props.C95_counterexample
#print axioms Verif.Props.C96_accurate
#print axioms Verif.Props.C96_song_valid
#print axioms Verif.Props.C96_song_near
#print axioms Verif.Props.C97_partitioned
#print axioms Verif.Props.C97_extended
#print axioms Verif.Props.C97_certified
#print axioms Verif.Props.C97_strict
#print axioms Verif.Props.C98_parse
#print axioms Verif.Props.C98_text
#print axioms Verif.Props.C98_generated
#print axioms Verif.Props.C98_more_decimals_counterexample
#print axioms Verif.Props.C99_roundtrip
#print axioms Verif.Props.C99_injective
#print axioms Verif.Props.C99_open_quotes
#print axioms Verif.Props.C99_bare_return
#print axioms Verif.Props.C99_numbers
#print axioms Verif.Props.C99_refused
#print axioms Verif.Props.C99_read_table
#print axioms Verif.Props.C99_results
#print axioms Verif.Props.C99_results_refused
#print axioms Verif.Props.C99_carriage_return_counterexample
#print axioms Verif.Props.C100_arguments
#print axioms Verif.Props.C100_files
#print axioms Verif.Props.C100_success
#print axioms Verif.Props.C100_unknown_method
#print axioms Verif.Props.C100_script
#print axioms Verif.Props.C100_no_slash
#print axioms Verif.Props.C101_big_m_error
#print axioms Verif.Props.C101_big_ms
#print axioms Verif.Props.C101_method1
#print axioms Verif.Props.C101_index
#print axioms Verif.Props.C102_subset_costs
#print axioms Verif.Props.C102_adaptive
#print axioms Verif.Props.C102_belotti
#print axioms Verif.Props.C102_generated
#print axioms Verif.Props.C102_orlib
#print axioms Verif.Props.C102_sharp
#print axioms Verif.Props.C103_text
#print axioms Verif.Props.C103_generated
#print axioms Verif.Props.C104_belotti_partial
#print axioms Verif.Props.C104_counterexample
#print axioms Verif.Props.C105_method2_partial
#print axioms Verif.Props.C105_counterexample
#print axioms Verif.Props.C105_text_partial
#print axioms Verif.Props.C106_run
#print axioms Verif.Props.C106_milp
#print axioms Verif.Props.C106_method1
#print axioms Verif.Props.C106_generated
#print axioms Verif.Props.C106_text
#print axioms Verif.Props.C107_generated
#print axioms Verif.Props.C107_big_ms
#print axioms Verif.Props.C107_method2
#print axioms Verif.Props.C107_text
#print axioms Verif.Props.C108_read
#print axioms Verif.Props.C108_generate
#print axioms Verif.Props.C108_instances
#print axioms Verif.Props.C108_method1
#print axioms Verif.Props.C108_refused
#print axioms Verif.Props.C108_wrapped_counterexample
#print axioms Verif.Props.C109_gap
#print axioms Verif.Props.C109_row
#print axioms Verif.Props.C109_method1
#print axioms Verif.Props.C109_method1_continuous
#print axioms Verif.Props.C109_method2_continuous
#print axioms Verif.Props.C109_orlib
#print axioms Verif.Props.C109_negative_counterexample
#print axioms Verif.Props.C109_columns
#print axioms Verif.Props.C110_format
#print axioms Verif.Props.C110_bold
#print axioms Verif.Props.C110_clear
#print axioms Verif.Props.C110_files
#print axioms Verif.Props.C110_solved
#print axioms Verif.Props.C110_table
#print axioms Verif.Props.C110_big_m
#print axioms Verif.Props.C111_method1
#print axioms Verif.Props.C111_method2
#print axioms Verif.Props.C111_method2_continuous
#print axioms Verif.Props.C111_row
#print axioms Verif.Props.C111_text
#print axioms Verif.Props.C111_text_continuous
#print axioms Verif.Props.C111_text_method2
#print axioms Verif.Props.C111_text_method2_binary
#print axioms Verif.Props.C112_bounds
#print axioms Verif.Props.C112_gap_stop
#print axioms Verif.Props.C112_feasible_stop
#print axioms Verif.Props.C112_finish
#print axioms Verif.Props.C112_first_stop
#print axioms Verif.Props.C112_monotone
#print axioms Verif.Props.C112_counterexample
#print axioms Verif.Props.C112_text
#print axioms Verif.Props.C113_bounds
#print axioms Verif.Props.C113_gap_stop
#print axioms Verif.Props.C113_feasible_stop
#print axioms Verif.Props.C113_finish
#print axioms Verif.Props.C113_first_stop
#print axioms Verif.Props.C113_monotone
#print axioms Verif.Props.C113_text
