{
 "claims": [
  {
   "property": "C01",
   "status": "proved",
   "theorems": [
    "Verif.Props.C01_is_feasible_verdict"
   ],
   "note": "Exact arithmetic over rationals; verdict of is_feasible for any point, any probabilities."
  },
  {
   "property": "C02",
   "status": "proved",
   "theorems": [
    "Verif.Props.C02_check_feasibility_record"
   ],
   "note": "All four outputs of check_feasibility characterised for both norms."
  },
  {
   "property": "C03",
   "status": "proved",
   "theorems": [
    "Verif.Props.C03_tolerance_exact"
   ],
   "note": "On the rounded (one-decimal) data grid the 1e-6 tolerance never changes the verdict of a binary point."
  },
  {
   "property": "C04",
   "status": "proved",
   "theorems": [
    "Verif.Props.C04_parse_generated",
    "Verif.Props.C04_parsed_data"
   ],
   "note": "C04_parse_generated: generated files are read back without an exception and with the generated data rounded to one decimal. C04_parsed_data: for every file that is read without an exception, where each number of the instance comes from."
  },
  {
   "property": "C05",
   "status": "proved",
   "theorems": [
    "Verif.Props.C05_round1"
   ],
   "note": "np.round(.,1) modelled as round-half-even to tenths."
  },
  {
   "property": "C06",
   "status": "proved",
   "theorems": [
    "Verif.Props.C06_random_initial_partition"
   ],
   "note": "For every sampler that returns a permutation."
  },
  {
   "property": "C07",
   "status": "proved",
   "theorems": [
    "Verif.Props.C07_cost_initial_partition"
   ],
   "note": "For every argsort implementation (any tie breaking)."
  },
  {
   "property": "C08",
   "status": "proved",
   "theorems": [
    "Verif.Props.C08_create_first_partition_total"
   ],
   "note": "Accepts exactly the two type names and 1 <= k <= N."
  },
  {
   "property": "C09",
   "status": "proved",
   "theorems": [
    "Verif.Props.C09_partition_probabilities"
   ],
   "note": "Positive probabilities; equiprobable corollary included."
  },
  {
   "property": "C10",
   "status": "proved",
   "theorems": [
    "Verif.Props.C10_subset_rows"
   ],
   "note": "Reshape of stacked rows, any subset."
  },
  {
   "property": "C11",
   "status": "proved",
   "theorems": [
    "Verif.Props.C11_partition_relaxation"
   ],
   "note": "Arbitrary positive probabilities."
  },
  {
   "property": "C12",
   "status": "proved",
   "theorems": [
    "Verif.Props.C12_chance_constraint_count",
    "Verif.Props.C12_singletons"
   ],
   "note": "Equiprobable scenarios, 0 <= eps; singleton case exact."
  },
  {
   "property": "C13",
   "status": "proved",
   "theorems": [
    "Verif.Props.C13_quantile_bound"
   ],
   "note": "Arbitrary non-negative probabilities, every tie-breaking; None case characterised exactly."
  },
  {
   "property": "C14",
   "status": "proved",
   "theorems": [
    "Verif.Props.C14_first_iteration_bound"
   ],
   "note": "For optimal subset costs; the returned x attains the bound and is feasible for the partitioned problem."
  },
  {
   "property": "C15",
   "status": "proved",
   "theorems": [
    "Verif.Props.C15_first_bound_improves"
   ],
   "note": "Cost initialisation with floor(eps N)+1 subsets."
  },
  {
   "property": "C16",
   "status": "proved",
   "theorems": [
    "Verif.Props.C16_pruning_safe"
   ],
   "note": "Indicator form and every big-M form with the same solutions (C48); exact subset costs."
  },
  {
   "property": "C17",
   "status": "partial",
   "theorems": [
    "Verif.Props.C17_selection",
    "Verif.Props.C17_selection_exists",
    "Verif.Props.C17_violation_within_tolerance",
    "Verif.Props.C17_chance_partial",
    "Verif.Props.C17_tolerance_counterexample"
   ],
   "note": "Selection part proved for every ordering and all probabilities (C17_selection, C17_selection_exists). The chance-constraint claim is false as stated: C17_tolerance_counterexample (the 1e-7 tolerance drops a scenario when N*(eps+1e-7) reaches the next integer). C17_chance_partial proves it under TolOk, which tolOk_of_integer shows for whole eps*N below ten million scenarios; C17_violation_within_tolerance bounds the violation in general. Missing: instances without TolOk, where it is false."
  },
  {
   "property": "C18",
   "status": "proved",
   "theorems": [
    "Verif.Props.C18_incremental_model",
    "Verif.Props.C18_last_selection",
    "Verif.Props.C18_within_gap"
   ],
   "note": "Induction over histories of calls with arbitrary solver answers; the model is compared constraint by constraint."
  },
  {
   "property": "C19",
   "status": "proved",
   "theorems": [
    "Verif.Props.C19_best_incumbent"
   ],
   "note": "Both infinities, every tie-breaking; none exactly when no candidate is admissible."
  },
  {
   "property": "C20",
   "status": "partial",
   "theorems": [
    "Verif.Props.C20_infeasible_keeps_bound_partial",
    "Verif.Props.C20_counterexample"
   ],
   "note": "False as stated: C20_counterexample is a whole run in which an infeasible lower-bound model replaces vLB = -inf by -1e6 and the run then stops on the (negative) gap. C20_infeasible_keeps_bound_partial proves the claim for every state with vLB >= -1e6 and every configuration. Missing: smaller or missing lower bounds, where it is false."
  },
  {
   "property": "C21",
   "status": "partial",
   "theorems": [
    "Verif.Props.C21_gap_certifies_partial",
    "Verif.Props.C21_counterexample",
    "Verif.Props.C21_division_by_zero",
    "Verif.Props.C21_gap_cases"
   ],
   "note": "False as stated for negative vLB (C21_counterexample) and raising for vLB = 0 (C21_division_by_zero). C21_gap_certifies_partial proves it for vLB > 0 and proves that the gap is infinite while a bound is missing; C21_gap_cases gives the gap of the current bounds in all cases. Missing: vLB <= 0, where it is false."
  },
  {
   "property": "C22",
   "status": "proved",
   "theorems": [
    "Verif.Props.C22_random_refine_partition"
   ],
   "note": "All partitions, points and shuffles; loop rounds bounded by fuel, see C25."
  },
  {
   "property": "C23",
   "status": "proved",
   "theorems": [
    "Verif.Props.C23_cost_refine_partition"
   ],
   "note": "Non-negative capacities; any answers meeting the Answers contract (satisfiable: GResult.exists_exact), any memory reachable by earlier calls."
  },
  {
   "property": "C24",
   "status": "proved",
   "theorems": [
    "Verif.Props.C24_random_cuts_off",
    "Verif.Props.C24_cost_cuts_off"
   ],
   "note": "Both refiners; the point is infeasible for the new partitioned problem."
  },
  {
   "property": "C25",
   "status": "proved",
   "theorems": [
    "Verif.Props.C25_random_terminates",
    "Verif.Props.C25_cost_terminates",
    "Verif.Props.C25_random_diverges"
   ],
   "note": "Both refiners: same result for every number of rounds >= mu; C25_random_diverges shows the guard is needed."
  },
  {
   "property": "C26",
   "status": "proved",
   "theorems": [
    "Verif.Props.C26_number_of_splits"
   ],
   "note": "Both directions: at least one split for partition-feasible points, AssertionError otherwise."
  },
  {
   "property": "C27",
   "status": "proved",
   "theorems": [
    "Verif.Props.C27_memory_valid"
   ],
   "note": "Induction over histories of refine calls; also the stored cost bounds both halves."
  },
  {
   "property": "C28",
   "status": "proved",
   "theorems": [
    "Verif.Props.C28_split_cost_bounds_halves"
   ],
   "note": "LP weak duality on the model AST."
  },
  {
   "property": "C29",
   "status": "proved",
   "theorems": [
    "Verif.Props.C29_get_subsets"
   ],
   "note": "Any variable values for the partition part."
  },
  {
   "property": "C30",
   "status": "proved",
   "theorems": [
    "Verif.Props.C30_merge_all"
   ],
   "note": "All partitions, all lists of distinct valid indices in any order; exact resulting list."
  },
  {
   "property": "C31",
   "status": "proved",
   "theorems": [
    "Verif.Props.C31_merge_feasible",
    "Verif.Props.C31_too_few"
   ],
   "note": "Succeeds iff there are mu+1 distinct candidates; margin specified on the scenarios, for any norm."
  },
  {
   "property": "C32",
   "status": "partial",
   "theorems": [
    "Verif.Props.C32_chain_counterexample",
    "Verif.Props.C32_merge_pairs_partial"
   ],
   "note": "False as stated: C32_chain_counterexample loses a scenario when two pairs share an index. C32_merge_pairs_partial proves the claim when no index occurs twice. Missing: overlapping pairs, where it is false."
  },
  {
   "property": "C33",
   "status": "partial",
   "theorems": [
    "Verif.Props.C33_sort_subset_costs",
    "Verif.Props.C33_find_inf_candidate_counterexample",
    "Verif.Props.C33_find_inf_candidate_partial"
   ],
   "note": "sort_subset_costs proved for every cost list. find_inf_candidate is false as stated (C33_find_inf_candidate_counterexample: costs paired with wrong candidates); C33_find_inf_candidate_partial proves it returns the right set of subsets. Missing: the order, where it is false."
  },
  {
   "property": "C34",
   "status": "proved",
   "theorems": [
    "Verif.Props.C34_merge_keeps_cut"
   ],
   "note": "C34_merge_keeps_cut: both refiners, both kinds of merge, any point for the margins; exactly floor(epsilon*N)+1 subsets stay violated beyond the tolerance."
  },
  {
   "property": "C35",
   "status": "proved",
   "theorems": [
    "Verif.Props.C35_bound_kept"
   ],
   "note": "For every pair of refiner and merger and every point: a point accepted by the merged partition is accepted by the partition before the refinement, so a valid upper bound stays valid."
  },
  {
   "property": "C36",
   "status": "proved",
   "theorems": [
    "Verif.Props.C36_costs_aligned",
    "Verif.Props.C36_costs_optimal"
   ],
   "note": "For arbitrary answers of the solver, at the start of every iteration and at the end of the run; with exact answers the costs are the optima of the subsets."
  },
  {
   "property": "C37",
   "status": "proved",
   "theorems": [
    "Verif.Props.C37_merge_total",
    "Verif.Props.C37_merge_dispatch",
    "Verif.Props.C37_can_merge_feasible"
   ],
   "note": "For every run, with arbitrary answers to all problems except the split problems of the cost refiner (which must be answered; with the random refiner nothing is assumed), any clock and any configuration: no run ends with the ValueError of line 239, the UnboundLocalError of line 188 or the failed assertion of line 193. C37_merge_dispatch states the numbers for one iteration; C37_can_merge_feasible characterises the merge test."
  },
  {
   "property": "C38",
   "status": "partial",
   "theorems": [
    "Verif.Props.C38_z_start",
    "Verif.Props.C38_keys_valid_partial",
    "Verif.Props.C38_stale_counterexample"
   ],
   "note": "C38_z_start proves the function claim for every vector and list; C38_keys_valid_partial the validity of the keys in every run. The claim about the list of the last iteration is false: C38_stale_counterexample gives an execution (the list is not reset when no merge happens)."
  },
  {
   "property": "C39",
   "status": "proved",
   "theorems": [
    "Verif.Props.C39_naive_valid"
   ],
   "note": "Original and partitioned instances; one big-M per row."
  },
  {
   "property": "C40",
   "status": "proved",
   "theorems": [
    "Verif.Props.C40_continuous_knapsack_exact"
   ],
   "note": "Optimality by a dual certificate plus an attaining point; any tie-breaking of argsort."
  },
  {
   "property": "C41",
   "status": "partial",
   "theorems": [
    "Verif.Props.C41_underestimates_counterexample",
    "Verif.Props.C41_never_underestimates_partial"
   ],
   "note": "False as stated: C41_underestimates_counterexample packs a zero-weight item of negative revenue, so the routine returns less than the maximum (a negative weight breaks it too, shown as an example). C41_never_underestimates_partial proves the claim for non-negative weights when zero-weight items have non-negative revenue, for every capacity and constant. Missing: the remaining signs, where it is false."
  },
  {
   "property": "C42",
   "status": "proved",
   "theorems": [
    "Verif.Props.C42_belotti_valid"
   ],
   "note": "Continuous through the fractional knapsack (C41), binary through the MIP bound of any solver meeting the Answers contract; any vUB, original or partitioned instance."
  },
  {
   "property": "C43",
   "status": "proved",
   "theorems": [
    "Verif.Props.C43_song_valid"
   ],
   "note": "Equiprobable scenarios, eps >= 0, any std::sort order of the compiled kernel; IndexError exactly when floor(eps N)+1 >= N."
  },
  {
   "property": "C44",
   "status": "proved",
   "theorems": [
    "Verif.Props.C44_song_partition_valid"
   ],
   "note": "Any partition with more than floor(eps N)+1 subsets."
  },
  {
   "property": "C45",
   "status": "proved",
   "theorems": [
    "Verif.Props.C45_cpp_violations_valid"
   ],
   "note": "Model of the C++ update loop over flat memory; every std::sort meeting the ordering contract; A >= 0, any capacities. Also proves that every entry is finite."
  },
  {
   "property": "C46",
   "status": "partial",
   "theorems": [
    "Verif.Props.C46_cpp_equals_python_partial",
    "Verif.Props.C46_one_row_counterexample"
   ],
   "note": "False as stated for m = 1: C46_one_row_counterexample (the diagonal stays 0). C46_cpp_equals_python_partial proves equality for m >= 2 on non-negative one-decimal data, for every sort and argsort. Missing: m = 1, where it is false."
  },
  {
   "property": "C47",
   "status": "partial",
   "theorems": [
    "Verif.Props.C47_belotti_le_naive",
    "Verif.Props.C47_song_le_naive_partial",
    "Verif.Props.C47_song_one_row_counterexample",
    "Verif.Props.C47_song_fine_data_counterexample"
   ],
   "note": "Belotti part proved for vUB >= 0 and exact MIP answers (C47_belotti_le_naive). Song part false as stated: C47_song_one_row_counterexample (one constraint per scenario). C47_song_le_naive_partial proves it for at least two constraints and one-decimal data, original and partitioned. Missing: the remaining instances, where it is false: one row per scenario, and data finer than the 1e-6 tolerances of the C++ loop (C47_song_fine_data_counterexample)."
  },
  {
   "property": "C48",
   "status": "proved",
   "theorems": [
    "Verif.Props.C48_naive_equivalent",
    "Verif.Props.C48_belotti_equivalent",
    "Verif.Props.C48_song_equivalent"
   ],
   "note": "Same feasible (x,z) assignments and objective, for every warm start and pruning; naive, Belotti (if no feasible objective exceeds vUB) and Song, original and partitioned, continuous and binary."
  },
  {
   "property": "C49",
   "status": "proved",
   "theorems": [
    "Verif.Props.C49_skipping_is_exact"
   ],
   "note": "Scaling argument: any valid big-M; non-negative data."
  },
  {
   "property": "C50",
   "status": "partial",
   "theorems": [
    "Verif.Props.C50_bounds_bracket_partial",
    "Verif.Props.C50_counterexample"
   ],
   "note": "C50_bounds_bracket_partial proves it for every run, outcome (also exceptions) and iteration when no solution of a subset problem has violations within the tolerance of is_feasible (always for binary one-decimal data, sharp_of_grid / C69). C50_counterexample: false for continuous variables even with an exact solver; C55_continuous_counterexample shows the same for a parsed file with one-decimal data. Moments are the assignments to the bounds (ghost trace)."
  },
  {
   "property": "C51",
   "status": "proved",
   "theorems": [
    "Verif.Props.C51_feasible_stop_optimal",
    "Verif.Props.C51_feasible_stop_near"
   ],
   "note": "Every run under Contract with partitioned problems solved without gap (Tight); feasible up to the tolerance always, exactly feasible if no violation is within the tolerance. C51_feasible_stop_near assumes only the relative gap 1e-8 that the code sets: the reported value is within 1e-8 of the value of a feasible point."
  },
  {
   "property": "C52",
   "status": "proved",
   "theorems": [
    "Verif.Props.C52_gap_stop_certifies"
   ],
   "note": "Every run under Contract with required gap < 1; positivity of vLB is proved, not assumed."
  },
  {
   "property": "C53",
   "status": "proved",
   "theorems": [
    "Verif.Props.C53_terminates_without_merging"
   ],
   "note": "For arbitrary answers, random choices and clock; the model's round bounds (fuel) are never reached; stated for epsilon >= 0."
  },
  {
   "property": "C54",
   "status": "partial",
   "theorems": [
    "Verif.Props.C54_counterexample",
    "Verif.Props.C54_time_limit_partial"
   ],
   "note": "False as stated: C54_counterexample gives an instance on which the main loop never ends, for every valid solver, random choice and configuration with merging, as long as time does not run out. C54_time_limit_partial: with a time limit that passes, every run ends."
  },
  {
   "property": "C55",
   "status": "partial",
   "theorems": [
    "Verif.Props.C55_no_internal_error_partial",
    "Verif.Props.C55_zero_division",
    "Verif.Props.C55_random_accurate_counterexample",
    "Verif.Props.C55_continuous_counterexample"
   ],
   "note": "C55_no_internal_error_partial: every run under Contract and Strong; only ZeroDivisionError (reachable: C55_zero_division), the 'same solution' check for continuous variables and, after the deadline, Gurobi's refusal of a negative time limit (C77) remain. Missing: subset solutions with violations within the tolerance (the claim is false for them: C55_continuous_counterexample is a parsed file with one-decimal data and continuous variables on which the run ends in AttributeError although all problems are solved exactly); the random refiner with accurate objective, which always fails (C55_random_accurate_counterexample)."
  },
  {
   "property": "C56",
   "status": "proved",
   "theorems": [
    "Verif.Props.C56_remaining",
    "Verif.Props.C56_time_limit"
   ],
   "note": "Every environment; the remaining-time part for every clock, the reading bound for clocks that do not go back."
  },
  {
   "property": "C57",
   "status": "partial",
   "theorems": [
    "Verif.Props.C57_milp",
    "Verif.Props.C57_belotti_partial",
    "Verif.Props.C57_belotti_counterexample",
    "Verif.Props.C57_belotti_loss_counterexample"
   ],
   "note": "C57_milp: indicator constraints, naive and Song big-Ms, every valid answer to the extended formulation; solve returns if Gurobi finds a point and the model is built within the time limit. C57_belotti_partial needs exact single-scenario optima: with the default MIP gap the claim is false for Belotti (C57_belotti_counterexample: 10000 is certified as optimal, a feasible point has value 10001; C57_belotti_loss_counterexample: the loss is not bounded by the gap, 1 is certified while a feasible point has value 10001). C102 gives a condition on the values under which the default gap is enough."
  },
  {
   "property": "C58",
   "status": "partial",
   "theorems": [
    "Verif.Props.C58_gap_partial",
    "Verif.Props.C58_counterexample"
   ],
   "note": "False as stated: C58_counterexample (quantile bound, first-iteration bound, Belotti big-M). C58_gap_partial: the bounds hold up to the factor 1 + 1e-4."
  },
  {
   "property": "C59",
   "status": "partial",
   "theorems": [
    "Verif.Props.C59_reported_partial",
    "Verif.Props.C59_counterexample"
   ],
   "note": "False as stated: C59_counterexample is an execution that stops feasible and reports an infeasible solution with equal bounds. C59_reported_partial: true if the partitioned problems are solved with no gap."
  },
  {
   "property": "C60",
   "status": "proved",
   "theorems": [
    "Verif.Props.C60_milp",
    "Verif.Props.C60_adaptive"
   ],
   "note": "Rows of both solvers read back by the exporter, with the columns in place; numbers at text level with three decimals."
  },
  {
   "property": "C61",
   "status": "partial",
   "theorems": [
    "Verif.Props.C61_milp_partial",
    "Verif.Props.C61_adaptive_counterexample",
    "Verif.Props.C61_milp_counterexample"
   ],
   "note": "Holds for the extended formulation with big-Ms. Fails after use_big_m=False and for every accepted configuration of the adaptive solver (KeyError in adaptive_details)."
  },
  {
   "property": "C62",
   "status": "partial",
   "theorems": [
    "Verif.Props.C62_partial",
    "Verif.Props.C62_counterexample",
    "Verif.Props.C62_accepted"
   ],
   "note": "Methods 1 and 2 bind. Methods 3 and 4 pass use_balancing, which solve does not take: TypeError, never a row. C62_accepted says exactly which keywords each solve takes."
  },
  {
   "property": "C63",
   "status": "partial",
   "theorems": [
    "Verif.Props.C63_partial",
    "Verif.Props.C63_counterexample"
   ],
   "note": "The paths agree exactly for whole percentages other than 29, 57 and 58, where int(e*100) truncates (doubles modelled as rationals rounded to 53 bits)."
  },
  {
   "property": "C64",
   "status": "proved",
   "theorems": [
    "Verif.Props.C64_format",
    "Verif.Props.C64_any_gap"
   ],
   "note": "Every table of rows with numbers, any list of instance ids. C64_any_gap: the same with infinite values and nan among the gaps, times and iterations."
  },
  {
   "property": "C65",
   "status": "proved",
   "theorems": [
    "Verif.Props.C65_bold",
    "Verif.Props.C65_nan_counterexample"
   ],
   "note": "Follows numpy's argmin on the summaries of all methods. C65_nan_counterexample: a mean gap of nan would be set in bold, as argmin returns the first nan."
  },
  {
   "property": "C66",
   "status": "proved",
   "theorems": [
    "Verif.Props.C66_bounds_monotone"
   ],
   "note": "Every environment and configuration, also when the run raises; no assumption on the answers of the solver. The trace is a ghost list written with every assignment; its last entry is proved to be the current bounds."
  },
  {
   "property": "C67",
   "status": "proved",
   "theorems": [
    "Verif.Props.C67_subset_cost_antitone"
   ],
   "note": "Exact answers to the sub-problems."
  },
  {
   "property": "C68",
   "status": "proved",
   "theorems": [
    "Verif.Props.C68_cost_refine_keyError_counterexample"
   ],
   "note": "KeyError for every exact solver on a concrete instance with negative capacities."
  },
  {
   "property": "C69",
   "status": "proved",
   "theorems": [
    "Verif.Props.C69_parsed_binary_certificates"
   ],
   "note": "Whole runs; the hypotheses are those of a generated file with an exact solver."
  },
  {
   "property": "C70",
   "status": "partial",
   "theorems": [
    "Verif.Props.C70_partial",
    "Verif.Props.C70_counterexample"
   ],
   "note": "The column tells naive from the two others only; Belotti and Song share the code 0 (counterexample)."
  },
  {
   "property": "C71",
   "status": "partial",
   "theorems": [
    "Verif.Props.C71_partial",
    "Verif.Props.C71_adaptive_partial",
    "Verif.Props.C71_counterexample"
   ],
   "note": "Counted as solved exactly if the gap is at most 1.05e-4; a run with gap 1.04e-4 is counted (counterexample)."
  },
  {
   "property": "C72",
   "status": "proved",
   "theorems": [
    "Verif.Props.C72_generated_instances",
    "Verif.Props.C72_generated_certificates",
    "Verif.Props.C72_sizes_whole"
   ],
   "note": "Random draws arbitrary; text of numbers left out here (C98 and C108 have it). Certificates under the contracts of C69 when epsilon*N is a whole number. C72_sizes_whole: the sizes read are the whole numbers of the file."
  },
  {
   "property": "C73",
   "status": "partial",
   "theorems": [
    "Verif.Props.C73_partial",
    "Verif.Props.C73_counterexample"
   ],
   "note": "All but the sign: both bounds are written negated (counterexample). Times of the lines are parameters."
  },
  {
   "property": "C74",
   "status": "proved",
   "theorems": [
    "Verif.Props.C74_instance_names",
    "Verif.Props.C74_result_names"
   ],
   "note": "Percentages up to 100 as doubles; the exporter, not main.py, confuses 28 and 29 percent (example)."
  },
  {
   "property": "C75",
   "status": "proved",
   "theorems": [
    "Verif.Props.C75_least_violated_selected"
   ],
   "note": "Run-level invariant over the ghosts points/chosen, for arbitrary solver answers; a clock that does not run backwards is assumed (otherwise an interrupted upper bound could be followed by a lower bound at an older point)."
  },
  {
   "property": "C76",
   "status": "proved",
   "theorems": [
    "Verif.Props.C76_most_satisfied_selected"
   ],
   "note": "Run-level invariant; counter is an exact count over the stored upper-bound solutions, also at exceptions."
  },
  {
   "property": "C77",
   "status": "partial",
   "theorems": [
    "Verif.Props.C77_deadline_partial",
    "Verif.Props.C77_milp_deadline_partial",
    "Verif.Props.C77_counterexample",
    "Verif.Props.C77_milp_counterexample",
    "Verif.Props.C77_milp_no_point"
   ],
   "note": "False as stated: C77_counterexample is a run with an exact solver that raises GurobiError because the model is ready after the deadline (negative TimeLimit); C77_milp_counterexample the same for the extended formulation on every instance whose naive big-Ms take the whole time; C77_milp_no_point: a limit reached before the first point gives AttributeError. C77_deadline_partial and C77_milp_deadline_partial: for every instance, solver and configuration the GurobiError occurs only if the limit has passed."
  },
  {
   "property": "C78",
   "status": "partial",
   "theorems": [
    "Verif.Props.C78_default_gap_partial",
    "Verif.Props.C78_counterexample",
    "Verif.Props.C78_belotti_counterexample"
   ],
   "note": "False as stated: C78_counterexample is a run in which one subset problem is answered within the default gap and everything else exactly, and which stops with is_feasible = True on a point violating half of the scenarios (the second upper bound is 1e-4 higher than the stored one, is not stored, and xLB becomes the old xUB). C78_default_gap_partial proves the bracket at every time, the certificate of a gap stop, and the bound of a feasible stop whose value is not below an earlier lower bound. Belotti's big-Ms are excluded by the property: with them a run can stop with vLB = vUB = 1 while a feasible point has objective 10001 (C78_belotti_counterexample). C102 gives a condition on the values under which everything holds."
  },
  {
   "property": "C79",
   "status": "proved",
   "theorems": [
    "Verif.Props.C79_tolerance"
   ],
   "note": "For every run of the model, however it ends, under TolContract (exact subset costs, valid other answers, non-negative data; no sharpness assumption). Example: the continuous run of C50_counterexample, whose bounds exceed every feasible objective, and a stop on the gap."
  },
  {
   "property": "C80",
   "status": "partial",
   "theorems": [
    "Verif.Props.C80_announced_partial",
    "Verif.Props.C80_counterexample"
   ],
   "note": "False as stated: C80_counterexample is a binary instance with whole numbers as data, all problems solved exactly and the default gap 1e-4, on which the solution printed as optimal (xUB) violates two of four scenarios although epsilon = 1/4, and no feasible solution has the printed objective. C80_announced_partial proves everything else: the printed objective bounds all feasible ones and is within the gap of the accepted point xLB, and after a feasible stop the printed solution is xLB with its own objective."
  },
  {
   "property": "C81",
   "status": "proved",
   "theorems": [
    "Verif.Props.C81_stop_reason"
   ],
   "note": "For every run that returns, whatever the answers of Gurobi; the verdict is stated by counting violated scenarios, the gap by the final bounds."
  },
  {
   "property": "C82",
   "status": "proved",
   "theorems": [
    "Verif.Props.C82_reproducible"
   ],
   "note": "The model is a function of its environment; the theorem says which parts of the environment a configuration uses (SameUnknowns), over whole runs."
  },
  {
   "property": "C83",
   "status": "proved",
   "theorems": [
    "Verif.Props.C83_anytime",
    "Verif.Props.C83_more_time_no_worse"
   ],
   "note": "Whole runs, any outcome, monotone clock. The answers of Gurobi are taken to be the same in both runs although the TimeLimit parameter differs; a call that stops on its TimeLimit would be such a difference. C83_more_time_no_worse is the consequence for the lower bound."
  },
  {
   "property": "C84",
   "status": "proved",
   "theorems": [
    "Verif.Props.C84_no_repeat",
    "Verif.Props.C84_merging_returns"
   ],
   "note": "C84_no_repeat: for every run, however it ends, consecutive upper-bound solutions differ in an item, and without merging all of them differ pairwise. C84_merging_returns shows that the restriction to runs without merging is needed: with merging two rejected solutions alternate for ever."
  },
  {
   "property": "C85",
   "status": "proved",
   "theorems": [
    "Verif.Props.C85_never_contradict",
    "Verif.Props.C85_adaptive_agree",
    "Verif.Props.C85_adaptive_milp_agree",
    "Verif.Props.C85_milp_agree"
   ],
   "note": "C85_never_contradict compares the bounds at all moments of two runs; C85_adaptive_agree, C85_adaptive_milp_agree and C85_milp_agree compare finished runs. Runs that stop on a feasible solution need the partitioned problems solved to optimality (Done), the extended formulation status OPTIMAL (MilpDone), Belotti's big-Ms exact subset costs (MilpMethod)."
  },
  {
   "property": "C86",
   "status": "proved",
   "theorems": [
    "Verif.Props.C86_big_m_times"
   ],
   "note": "C86_big_m_times locates every row of the table of big-M times and its three means in terms of the files of the folder; a missing file gives a dash. The mean is taken over the rows that MilpSolver writes."
  },
  {
   "property": "C87",
   "status": "proved",
   "theorems": [
    "Verif.Props.C87_summary_tables",
    "Verif.Props.C87_best_in_bold",
    "Verif.Props.C87_total",
    "Verif.Props.C87_printed_name"
   ],
   "note": "C87_summary_tables identifies the row of every risk level and number of scenarios with the results of its files; C87_best_in_bold combines it with C65 (the best method of the row is in bold); C87_total: no exception whatever files are missing (milpRow_good: rows of the extended formulation qualify); C87_printed_name: shortened names. If all files of a row are missing, the dash of the first method is in bold (example)."
  },
  {
   "property": "C88",
   "status": "partial",
   "theorems": [
    "Verif.Props.C88_same_result",
    "Verif.Props.C88_history_partial",
    "Verif.Props.C88_last_report",
    "Verif.Props.C88_interrupt",
    "Verif.Props.C88_rows_bracket",
    "Verif.Props.C88_time_counterexample"
   ],
   "note": "C88_history_partial: order, completeness, no repetition, and the exact times; C88_last_report: the file at every moment; C88_rows_bracket: meaning of the numbers (indicator, naive, Song); C88_interrupt; C88_same_result. Missing from the full claim: the times leave out the time between the reading for elapsed_time and the start of the optimization (building the model), so the dates are too early (C88_time_counterexample)."
  },
  {
   "property": "C89",
   "status": "partial",
   "theorems": [
    "Verif.Props.C89_adaptive_row_partial",
    "Verif.Props.C89_main_row_partial",
    "Verif.Props.C89_alarm_partial",
    "Verif.Props.C89_repaired_partial",
    "Verif.Props.C89_stop_counterexample",
    "Verif.Props.C89_belotti_counterexample"
   ],
   "note": "Row of method 1 of main.py: every valid answer. Row of method 2: scenario problems solved exactly; false with Gurobi's default gap (C89_belotti_counterexample). Rows of the adaptive solver, also after an interrupt (C89_adaptive_row_partial) and for the bounds at every moment of the run (C89_alarm_partial): under Contract, up to the relative error 1e-8 after a stop with a feasible solution, where the exact claim is false (C89_stop_counterexample). main.py as it stands writes no row for methods 3 and 4 (C61, C62); with an accepted call and a complete dictionary it would, and the row would be a certificate (C89_repaired_partial)."
  },
  {
   "property": "C90",
   "status": "partial",
   "theorems": [
    "Verif.Props.C90_instances",
    "Verif.Props.C90_results",
    "Verif.Props.C90_workflow_partial",
    "Verif.Props.C90_counterexample",
    "Verif.Props.C90_history_names",
    "Verif.Props.C90_same_experiments",
    "Verif.Props.C90_repository_partial",
    "Verif.Props.C90_constants",
    "Verif.Props.C90_tables_partial"
   ],
   "note": "For arbitrary OR-library files of distinct sizes and arbitrary parameters (C90_instances, C90_results, C90_workflow_partial), and for the files and constants of the repository (C90_repository_partial, C90_same_experiments, C90_constants); the exporter then writes all tables without exception (C90_tables_partial). Missing: methods 3 and 4, for which main.py never writes a row (C90_counterexample: the exporter reads what was there before; C90_tables_partial: their columns are empty), and method 2 with Gurobi's default gap (C89_belotti_counterexample)."
  },
  {
   "property": "C91",
   "status": "partial",
   "theorems": [
    "Verif.Props.C91_flags",
    "Verif.Props.C91_flags_exact",
    "Verif.Props.C91_floor_partial",
    "Verif.Props.C91_percentages",
    "Verif.Props.C91_verdict_partial",
    "Verif.Props.C91_quantile",
    "Verif.Props.C91_selected",
    "Verif.Props.C91_counterexample"
   ],
   "note": "Flags (C91_flags, C91_flags_exact), quantile and selection (C91_quantile, C91_selected, at most 90000 scenarios) for all percentages below 100; floor and verdict for all percentages except ten, or when epsilon*N is not an integer. Exactly these ten (29, 35, 41, 47, 57, 58, 69, 70, 82, 94) fail for some number of scenarios (C91_percentages); C91_counterexample shows the consequences for 29 percent of 100 scenarios. Overflow, underflow and nan are not modelled."
  },
  {
   "property": "C92",
   "status": "proved",
   "theorems": [
    "Verif.Props.C92_memory_safe",
    "Verif.Props.C92_limit",
    "Verif.Props.C92_large_counterexample",
    "Verif.Props.C92_negative_counterexample"
   ],
   "note": "The limit is sharp for at least two constraints (C92_limit); undefined behaviour for 10000 scenarios of 30 constraints and for negative coefficients (counterexamples). Exact comparison; for the comparison in doubles see C93. The temporaries of Cython and memory allocation are not modelled."
  },
  {
   "property": "C93",
   "status": "partial",
   "theorems": [
    "Verif.Props.C93_exact_order",
    "Verif.Props.C93_acyclic",
    "Verif.Props.C93_integer_exact",
    "Verif.Props.C93_integer_partial",
    "Verif.Props.C93_decides_right",
    "Verif.Props.C93_counterexample"
   ],
   "note": "Partial because the full claim is false: C93_counterexample gives three items of one decimal with equal ratios on which the rounded comparison is no strict weak order. Proved: for all non-negative data the comparison never contradicts the exact ratios (C93_exact_order) and has no cycle of any length (C93_acyclic); for integers up to 2^26 it is the exact comparison and a strict weak order (C93_integer_exact, C93_integer_partial); for data of one decimal it decides all pairs of different ratios as the decimals do (C93_decides_right)."
  },
  {
   "property": "C94",
   "status": "proved",
   "theorems": [
    "Verif.Props.C94_run",
    "Verif.Props.C94_rounded_points",
    "Verif.Props.C94_milp"
   ],
   "note": "For all runs, however they end, under NearTolContract: C94_run (bounds after every assignment, stop on the gap), C94_rounded_points (upper-bound solutions round to points feasible for the partitioned problem), C94_milp (extended formulation). Assumes OneDecimal data, Moderate sizes (capacities up to 5000, row sums up to 20000), at most 90000 scenarios, sums of the values and of the capacities up to 1e12, binary variables; Dual bounds are exact for exactly feasible points; no Belotti. The clause about optimality after a stop on the gap supposes a non-negative lower bound, since a solution within tolerances can have a slightly negative value."
  },
  {
   "property": "C95",
   "status": "partial",
   "theorems": [
    "Verif.Props.C95_no_abort_partial",
    "Verif.Props.C95_counterexample"
   ],
   "note": "Partial because the full claim is false: C95_counterexample is a whole run with naive big-Ms that ends with the assertion error of Refiner.split, with a solver whose answers are all within the tolerances. Proved (C95_no_abort_partial): with indicator constraints, binary or continuous variables, at most 90000 scenarios, at most floor(epsilon*N) subsets are violated and both refiners return a finer partition without error if the point is rejected, the cost refiner also if its split problems and all earlier ones are answered only within the tolerances."
  },
  {
   "property": "C96",
   "status": "proved",
   "theorems": [
    "Verif.Props.C96_accurate",
    "Verif.Props.C96_song_valid",
    "Verif.Props.C96_song_near"
   ],
   "note": "Hypotheses: non-negative data of one decimal, bounds on the size (SongSized; 100 variables with row sums up to 20000 and capacities up to 5000 meet them), comparison a strict weak order (otherwise std::sort is undefined, C93). C96_song_valid and C96_song_near are for unpartitioned equiprobable instances. Overflow, underflow and nan are left out."
  },
  {
   "property": "C97",
   "status": "proved",
   "theorems": [
    "Verif.Props.C97_partitioned",
    "Verif.Props.C97_extended",
    "Verif.Props.C97_certified",
    "Verif.Props.C97_strict"
   ],
   "note": "C97_partitioned and C97_extended: feasible points are accepted with margin, accepted points are nearly feasible, answers (contract GResult.FlValid: bounds hold for all points that violate no rounded constraint by more than 2e-10) carry over to the contract of C94 and C95, with objective value and bound changed by at most 2^-52 times the sum of the values (not at all if the values are doubles). C97_certified: end to end for binary instances with indicator constraints. C97_strict: without the tolerance the claim fails in seven of eight settings of the experiments. Assumes Equi, Moderate sizes, N <= 90000, more than kmax subsets, big-Ms that are doubles up to 10^6 (the same in both problems); the rounding inside Gurobi of objVal and objBnd is not modelled."
  },
  {
   "property": "C98",
   "status": "proved",
   "theorems": [
    "Verif.Props.C98_parse",
    "Verif.Props.C98_text",
    "Verif.Props.C98_generated",
    "Verif.Props.C98_more_decimals_counterexample"
   ],
   "note": "C98_parse (parser on doubles = dbl of the exact parser, including exceptions), C98_text (with the csv text in between), C98_generated (from the draws to the instance read). Numbers are written in any notation that reads back as the same double (Shows), which includes Python's shortest one; the exact draws are perturbed by at most one rounding error. The bounds are 10^10 for the numbers and sizes and 10^9 for the draws. C98_more_decimals_counterexample: with 19 decimals the claim fails. Reading the OR-library file (decimal texts to doubles) is C108."
  },
  {
   "property": "C99",
   "status": "proved",
   "theorems": [
    "Verif.Props.C99_roundtrip",
    "Verif.Props.C99_injective",
    "Verif.Props.C99_open_quotes",
    "Verif.Props.C99_bare_return",
    "Verif.Props.C99_numbers",
    "Verif.Props.C99_refused",
    "Verif.Props.C99_read_table",
    "Verif.Props.C99_results",
    "Verif.Props.C99_results_refused",
    "Verif.Props.C99_carriage_return_counterexample"
   ],
   "note": "C99_roundtrip for all tables of texts, C99_injective, C99_read_table (universal line ends), C99_results (values of result rows in double precision), C99_numbers (which tables are accepted with conversion of numbers, characterised by the grammar FloatText of Python's float), C99_refused, C99_results_refused, C99_bare_return and C99_open_quotes (files that are not tables of numbers). C99_carriage_return_counterexample: with a carriage return in the name read_table returns a line feed instead. The csv module is modelled after CPython 3.11, without the limit on the length of fields; float without Unicode digits and blanks, the sign of zero, under- and overflow."
  },
  {
   "property": "C100",
   "status": "proved",
   "theorems": [
    "Verif.Props.C100_arguments",
    "Verif.Props.C100_files",
    "Verif.Props.C100_success",
    "Verif.Props.C100_unknown_method",
    "Verif.Props.C100_script",
    "Verif.Props.C100_no_slash"
   ],
   "note": "Arguments: the accepted lists are characterised by an inductive grammar of Python's integers and numbers (ASCII; the limit on digits, Unicode, overflow and the sign of zero left out). Frame: only the two result files and the folder change. Success: the row is in the file and is read back (C99). An infinite or nan risk level is left out; files can be opened; paths are compared as texts. C100_no_slash shows that a prefix without slash misses the folder."
  },
  {
   "property": "C101",
   "status": "proved",
   "theorems": [
    "Verif.Props.C101_big_m_error",
    "Verif.Props.C101_big_ms",
    "Verif.Props.C101_method1",
    "Verif.Props.C101_index"
   ],
   "note": "C101_method1 under the contract FlValid with 9e-10: returned points satisfy the rounded problem within the tolerances that the code sets, the bound holds for all points that violate no rounded constraint by more than 9e-10. C101_big_ms: error of the big-Ms at most 7e-10. C101_big_m_error is the general statement for big-Ms with any error up to 1/2. Clock readings are exact. Hypotheses: one-decimal data, n at most 100, strict weak order of the comparison (C93), binary variables."
  },
  {
   "property": "C102",
   "status": "proved",
   "theorems": [
    "Verif.Props.C102_subset_costs",
    "Verif.Props.C102_adaptive",
    "Verif.Props.C102_belotti",
    "Verif.Props.C102_generated",
    "Verif.Props.C102_orlib",
    "Verif.Props.C102_sharp"
   ],
   "note": "C102_subset_costs, C102_adaptive, C102_belotti and C102_generated (from the OR-library file to the end of a run) for all answers within the default gap; C102_orlib decides the condition for the eight files of the repository (finite data); C102_sharp shows that 10001 units are too many. Proved by refinement: runs read only costs and solutions of the subset problems (Lemmas/SubEnv.lean), so a run with gap answers is a run of an exact solver."
  },
  {
   "property": "C103",
   "status": "proved",
   "theorems": [
    "Verif.Props.C103_text",
    "Verif.Props.C103_generated"
   ],
   "note": "C103_text for every file, C103_generated from the OR-library numbers and the draws. Composition of C98 and C101 with the idempotence of the rounding to doubles. As in C101, the sorts of the compiled routine must be defined (SortsDefined, C93), and the rounding of ObjVal and ObjBound by Gurobi is ignored."
  },
  {
   "property": "C104",
   "status": "partial",
   "theorems": [
    "Verif.Props.C104_belotti_partial",
    "Verif.Props.C104_counterexample"
   ],
   "note": "The full claim is false (C104_counterexample): the cost of a scenario is read as 99.999 instead of 100, the big-M computed from it excludes the optimum, and 1 is reported as optimal; the values are on a coarse grid, so C102 does not help. C104_belotti_partial: the solution rounds to a feasible point; with q the quantile of the scenario costs, vUB bounds every feasible objective up to q, no feasible objective exceeds (1+1e-4) q; vUB bounds all of them if the scenario costs are not below the true ones, and up to 1+1e-4 if vUB >= q. Assumes binary variables, OneDecimal data, Moderate sizes, dual bounds exact for exactly feasible points."
  },
  {
   "property": "C105",
   "status": "partial",
   "theorems": [
    "Verif.Props.C105_method2_partial",
    "Verif.Props.C105_counterexample",
    "Verif.Props.C105_text_partial"
   ],
   "note": "The full claim is false (C105_counterexample): as in C104 the cost of a scenario is reported below its optimum within IntFeasTol, here with doubles throughout. C105_method2_partial: xLB and vLB are right; with q the quantile of the reported costs, found at the exact index although the probabilities are added in doubles (C91), vUB bounds every feasible point with rounded objective up to q, all feasible objectives are at most (1+1e-4) q, so vUB bounds them all if no cost is below a value of its scenario and up to the factor 1+1e-4 if vUB >= q; all up to the rounding of the objective. C105_text_partial: the same from the text of the instance file on. Missing: nothing else holds in general. Continuous variables: C107."
  },
  {
   "property": "C106",
   "status": "proved",
   "theorems": [
    "Verif.Props.C106_run",
    "Verif.Props.C106_milp",
    "Verif.Props.C106_method1",
    "Verif.Props.C106_generated",
    "Verif.Props.C106_text"
   ],
   "note": "C106_run (adaptive method, all runs, under NearTolContract, no Belotti), C106_milp (extended formulation; indicator, naive, Song), C106_method1 (doubles, contract FlValid with 9e-10), C106_text (from the text of the file), C106_generated (from the OR-library numbers and the draws; sizes are conditions on the draws). k is any number with row sums at most k times the capacity (RowRatio); capacities of at least 1. Method 2 for continuous variables in doubles: C107."
  },
  {
   "property": "C107",
   "status": "proved",
   "theorems": [
    "Verif.Props.C107_generated",
    "Verif.Props.C107_big_ms",
    "Verif.Props.C107_method2",
    "Verif.Props.C107_text"
   ],
   "note": "C107_big_ms (the knapsack routine), C107_method2 (the whole method, contract FlAnswers with ObjVal = ObjBnd for the linear problems of the scenarios, FlValid with 9e-10 for the extended formulation), C107_text (from the text of the file), C107_generated (from the OR-library numbers and the draws). k is any number with row sums at most k times the capacity (RowRatio). Whole values with a sum below 2^53 keep the sums of the weights exact; with fractional values the routine is not bounded here."
  },
  {
   "property": "C108",
   "status": "proved",
   "theorems": [
    "Verif.Props.C108_read",
    "Verif.Props.C108_generate",
    "Verif.Props.C108_instances",
    "Verif.Props.C108_method1",
    "Verif.Props.C108_refused",
    "Verif.Props.C108_wrapped_counterexample"
   ],
   "note": "C108_read, C108_generate: from the text of an OR-library file to the files written. C108_instances, C108_method1: read back, with the instance of exact arithmetic named (parse of the rows with the drawn numbers up to 2^-53). C108_refused: words that are no numbers. C108_wrapped_counterexample: a line break among the capacities. numpy's astype on texts is assumed to read like int and float."
  },
  {
   "property": "C109",
   "status": "proved",
   "theorems": [
    "Verif.Props.C109_gap",
    "Verif.Props.C109_row",
    "Verif.Props.C109_method1",
    "Verif.Props.C109_method1_continuous",
    "Verif.Props.C109_method2_continuous",
    "Verif.Props.C109_orlib",
    "Verif.Props.C109_negative_counterexample",
    "Verif.Props.C109_columns"
   ],
   "note": "Model/FloatRow.lean: _compute_gap, the percentages and the row of methods 1 and 2 in doubles (under- and overflow left out). C109_gap: relative error and stopping test. C109_row: a result with certified bounds gives a row whose text, read back, is a certificate. C109_method1, C109_method1_continuous, C109_method2_continuous: from the text of an instance file to the text of the row; C109_orlib: from the text of an OR-library file. Method 2 with binary variables is left out, because its bound does not hold (C105). C109_negative_counterexample: a lower bound below 0 within the tolerances is printed with a negative gap."
  },
  {
   "property": "C110",
   "status": "proved",
   "theorems": [
    "Verif.Props.C110_format",
    "Verif.Props.C110_bold",
    "Verif.Props.C110_clear",
    "Verif.Props.C110_files",
    "Verif.Props.C110_solved",
    "Verif.Props.C110_table",
    "Verif.Props.C110_big_m"
   ],
   "note": "sums, quotients and comparisons of doubles in format_method, the table rows and the table of big-M times; the rows as read from the text of result files (C110_files with C99_results); C110_table goes from the runs of methods 1 and 2 over the texts of their result files to the cell of the table"
  },
  {
   "property": "C111",
   "status": "proved",
   "theorems": [
    "Verif.Props.C111_method1",
    "Verif.Props.C111_method2",
    "Verif.Props.C111_method2_continuous",
    "Verif.Props.C111_row",
    "Verif.Props.C111_text",
    "Verif.Props.C111_text_continuous",
    "Verif.Props.C111_text_method2",
    "Verif.Props.C111_text_method2_binary"
   ],
   "note": "From the text of an instance file to a row counted as solved (C111_text, C111_text_continuous, C111_text_method2, C111_text_method2_binary), via totality of the runs (C111_method1, C111_method2, C111_method2_continuous) and of the row (C111_row). Assumes that Gurobi finishes within the time limit and that the clock is monotone with readings before Gurobi starts within the limit; the ZeroDivisionError at vLB = 0 is part of the statement."
  },
  {
   "property": "C112",
   "status": "proved",
   "theorems": [
    "Verif.Props.C112_bounds",
    "Verif.Props.C112_gap_stop",
    "Verif.Props.C112_feasible_stop",
    "Verif.Props.C112_finish",
    "Verif.Props.C112_first_stop",
    "Verif.Props.C112_monotone",
    "Verif.Props.C112_counterexample",
    "Verif.Props.C112_text"
   ],
   "note": "FlReach over-approximates a run: assignments to vUB, vLB and xLB in any order, with any partition, candidate and order of scenarios; comparisons, sums and products in doubles. Indicator constraints; exceptions and the end of the loop are not part of it (C48, C55)."
  },
  {
   "property": "C113",
   "status": "proved",
   "theorems": [
    "Verif.Props.C113_bounds",
    "Verif.Props.C113_gap_stop",
    "Verif.Props.C113_feasible_stop",
    "Verif.Props.C113_finish",
    "Verif.Props.C113_first_stop",
    "Verif.Props.C113_monotone",
    "Verif.Props.C113_text"
   ],
   "note": "FlReach as in C112, with continuous variables. Indicator constraints; exceptions and the end of the loop are not part of it (C48, C55)."
  }
 ]
}