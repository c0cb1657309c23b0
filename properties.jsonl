{"id": "C01", "title": "Feasibility verdict counts violated scenarios", "statement": "ChanceKnapInstance.is_feasible(x) returns True in its first component exactly when the number of scenarios having at least one constraint A_s,i.x <= b_s,i exceeded by more than 1e-6 is at most epsilon*N; its second component is that number and its flag list marks exactly those scenarios.", "quantifier": "every instance (any sizes, any real data, any epsilon) and every point x", "why_tests_cant": "the verdict depends on all N*m constraints of an arbitrary instance; tests check two points of one file", "anchors": ["src/instance/ChanceKnapInstance.py:is_feasible", "src/instance/ChanceKnapInstance.py:_get_scenario_infeasibility"]}
{"id": "C02", "title": "check_feasibility bookkeeping is consistent", "statement": "After check_feasibility(x), infeasible_scenarios is the strictly increasing list of exactly the violated scenarios, and get_feasible_scenarios()[s] is True exactly for the non-violated ones, although the latter is decided from norm-rescaled violations.", "quantifier": "every instance and every point x, any rescaling norm that is positive on non-zero rows", "why_tests_cant": "two independent encodings of the same set must agree on every input, including zero rows", "anchors": ["src/instance/ChanceKnapInstance.py:check_feasibility", "src/instance/ChanceKnapInstance.py:get_feasible_scenarios"]}
{"id": "C03", "title": "The 1e-6 tolerance is exact for binary problems", "statement": "For an instance loaded by the parser (data rounded to one decimal) and a 0/1 point x, the verdict of is_feasible(x) equals the exact chance constraint: number of scenarios with some A_s,i.x > b_s,i is at most epsilon*N.", "quantifier": "every parsed instance and every 0/1 vector", "why_tests_cant": "2^n points and arbitrary data", "anchors": ["src/instance/ChanceKnapInstance.py:is_feasible", "src/instance/ChanceKnapInstance.py:_parse_model_data"]}
{"id": "C04", "title": "Generated instance files parse back to the generated data", "statement": "Parsing the rows written by the instance generator for (c, A_1..A_N, b) yields nb_vars, nb_constraints, nb_scenarios as written, get_vector_c()=round(c), get_matrix_A(s)=round(A_s) and get_vector_b(s)=round(b) for every s; no IndexError is raised.", "quantifier": "every size n, m, N >= 1 and every data", "why_tests_cant": "row-index arithmetic must be right for all sizes", "anchors": ["src/instance/ChanceKnapInstance.py:_parse_model_data", "data/cc-instances/knapsack/instance-generator.py"]}
{"id": "C05", "title": "One-decimal rounding is safe", "statement": "The rounding applied to all data on load returns a multiple of 1/10 at distance at most 1/20 from the input, takes the even tenth halfway between two, fixes values that already have one decimal, is monotone, and maps non-negative data to non-negative data.", "quantifier": "every rational input", "why_tests_cant": "infinite domain", "anchors": ["src/instance/ChanceKnapInstance.py:_parse_model_data"]}
{"id": "C06", "title": "Random initial partition is a balanced partition", "statement": "create_first_partition(k, 'random') returns exactly k subsets, none empty, that contain every scenario 0..N-1 exactly once, with sizes differing by at most one.", "quantifier": "every N, every 1 <= k <= N and every outcome of the random shuffle", "why_tests_cant": "N! shuffles for every N and k", "anchors": ["src/Initializer.py:create_first_partition", "src/Initializer.py:_random_partition"]}
{"id": "C07", "title": "Cost initial partition is a balanced partition that spreads costs", "statement": "create_first_partition(k, 'cost') returns k non-empty subsets with sizes differing by at most one that contain every scenario exactly once; the k most expensive scenarios are in k different subsets, and so are the k cheapest.", "quantifier": "every N, 1 <= k <= N, every list of scenario costs and every tie-breaking of the sort", "why_tests_cant": "all cost vectors with ties", "anchors": ["src/Initializer.py:_single_scenario_cost_partition"]}
{"id": "C08", "title": "create_first_partition accepts or rejects correctly", "statement": "create_first_partition raises AssertionError when nb_clusters > N, NotImplementedError for an unknown partition type, and otherwise (nb_clusters >= 1) never trips its internal checks.", "quantifier": "every N, nb_clusters, type, shuffle and cost list", "why_tests_cant": "all inputs", "anchors": ["src/Initializer.py:create_first_partition", "src/Initializer.py:_check_partitions"]}
{"id": "C09", "title": "Partition probabilities are a distribution", "statement": "After load_partition, get_proba() is non-negative and sums to 1, and get_epsilon() is the original epsilon rescaled by the same total; for equiprobable scenarios every subset has probability 1/K and get_epsilon()*K = epsilon*N.", "quantifier": "every instance with positive probabilities and every non-empty partition with no empty subset", "why_tests_cant": "all partitions and probabilities", "anchors": ["src/instance/PartitionChanceKnapInstance.py:load_partition"]}
{"id": "C10", "title": "A subset's constraints are exactly its scenarios' constraints", "statement": "x satisfies every row of get_matrix_A(c) x <= get_vector_b(c) of the partitioned instance exactly when x satisfies all constraints of every scenario in subset c; get_nb_constraints(c) is the number of rows.", "quantifier": "every instance, partition, subset index and point x", "why_tests_cant": "the reshape index arithmetic must be right for all sizes", "anchors": ["src/instance/PartitionChanceKnapInstance.py:get_matrix_A", "src/instance/PartitionChanceKnapInstance.py:get_vector_b"]}
{"id": "C11", "title": "Partitioning is a relaxation", "statement": "Every point satisfying the original chance constraint satisfies the chance constraint of the partitioned instance, so the optimum of the partitioned problem is an upper bound on the optimum of the original problem.", "quantifier": "every instance with arbitrary scenario probabilities, every partition, every x", "why_tests_cant": "all partitions and points", "anchors": ["src/instance/PartitionChanceKnapInstance.py:load_partition", "src/optim/OptiModel.py:_add_chance_constraint"]}
{"id": "C12", "title": "The partitioned chance constraint allows floor(epsilon*N) violated subsets", "statement": "For equiprobable scenarios a set of 0/1 indicators satisfies the chance constraint added to the model of a K-subset partition exactly when at most floor(epsilon*N) indicators are 0, whatever K is; with one scenario per subset the partitioned problem has the same feasible points as the original.", "quantifier": "every N, epsilon, K and indicator vector", "why_tests_cant": "all sizes and indicator vectors", "anchors": ["src/optim/OptiModel.py:_add_chance_constraint", "src/instance/PartitionChanceKnapInstance.py:load_partition"]}
{"id": "C13", "title": "Quantile bound is a valid upper bound", "statement": "When scenario costs are the single-scenario optima, ahmed_et_al_bound returns a number that no point satisfying the chance constraint can exceed in objective; it returns None only if the probabilities never reach epsilon+1e-7.", "quantifier": "every instance, every scenario probabilities, every epsilon and every tie-breaking of the sort", "why_tests_cant": "quantifies over all feasible points of all instances", "anchors": ["src/UpperBounder.py:ahmed_et_al_bound"]}
{"id": "C14", "title": "Sorting bound of the first iteration is valid", "statement": "When the partition has floor(epsilon*N)+1 subsets, the value returned by first_iteration_bound is an upper bound on the objective of every point feasible for the partitioned (hence the original) problem, and the returned x attains it and is feasible for the partitioned problem.", "quantifier": "every instance, every minimum-size partition", "why_tests_cant": "all instances and partitions", "anchors": ["src/UpperBounder.py:first_iteration_bound", "src/solver/AdaptivePartitioner.py:_upper_bound"]}
{"id": "C15", "title": "First bound improves on the quantile bound with cost initialisation", "statement": "With the cost-based initial partition of floor(epsilon*N)+1 subsets, the first-iteration bound is at most the quantile bound, so the first upper bound solution is always stored.", "quantifier": "every instance, every tie-breaking", "why_tests_cant": "all instances", "anchors": ["src/Initializer.py:_single_scenario_cost_partition", "src/UpperBounder.py:ahmed_et_al_bound", "src/solver/AdaptivePartitioner.py:_setup_initial_partition"]}
{"id": "C16", "title": "Pruning is safe", "statement": "Fixing to 0 the indicators of all subsets whose cost is at most vLB-1e-3 removes from the partitioned problem only points with objective at most vLB-1e-3: every feasible point with a larger objective remains feasible.", "quantifier": "every instance, partition, vLB and point", "why_tests_cant": "all points", "anchors": ["src/UpperBounder.py:partition_bound", "src/optim/CCLPModel.py:fix_z_to_zero"]}
{"id": "C17", "title": "Lower-bound scenario selection meets the probability target", "statement": "The scenarios selected for the deterministic lower-bound problem are distinct, have total probability at least 1-epsilon-1e-7, and are the shortest such prefix of the ordering; for equiprobable scenarios any point satisfying all of them satisfies the original chance constraint.", "quantifier": "every instance, epsilon in [0,1), every scenario ordering", "why_tests_cant": "all orderings and sizes", "anchors": ["src/LowerBounder.py:_get_selected_scenarios", "src/LowerBounder.py:deterministic_bound"]}
{"id": "C18", "title": "Incremental lower-bound model holds exactly the selected scenarios", "statement": "After any sequence of calls to deterministic_bound, the constraints present in the persistent deterministic model are exactly the constraints of the scenarios selected in the last call plus lower-bound cuts objective >= v for values v of vLB passed so far.", "quantifier": "every history of calls", "why_tests_cant": "history-dependent state", "anchors": ["src/LowerBounder.py:_solve_deter_model", "src/optim/DeterModel.py:add", "src/optim/DeterModel.py:remove"]}
{"id": "C19", "title": "Incumbent search returns the best admissible candidate", "statement": "incumbent_bound returns a candidate that is feasible, has vLB+1e-8 <= objective <= vUB, and has the largest objective among the feasible candidates in that window; it reports no improvement exactly when there is none.", "quantifier": "every candidate list, vUB, vLB (including infinities), every tie-breaking", "why_tests_cant": "all candidate lists", "anchors": ["src/LowerBounder.py:incumbent_bound", "src/LowerBounder.py:_find_best_incumbent"]}
{"id": "C20", "title": "An infeasible lower-bound model never changes the lower bound", "statement": "When the deterministic lower-bound problem is infeasible, the solver's vLB and xLB are left unchanged.", "quantifier": "every state of the solver", "why_tests_cant": "depends on the history of bounds", "anchors": ["src/LowerBounder.py:_solve_deter_model", "src/solver/AdaptivePartitioner.py:_lower_bound"]}
{"id": "C21", "title": "Optimality gap certifies the solution", "statement": "If the gap computed from vLB and vUB is at most g then vUB <= (1+g)*vLB, so a stop on the gap criterion certifies relative optimality g; the gap is infinite while a bound is missing.", "quantifier": "every pair of bounds", "why_tests_cant": "all reals and infinities", "anchors": ["src/solver/Solver.py:_compute_gap", "src/solver/AdaptivePartitioner.py:solve"]}
{"id": "C22", "title": "Random refinement keeps a partition", "statement": "refine with the random refiner returns a list of subsets that is again a partition of 0..N-1 without empty subsets, with exactly mu more subsets, where mu = floor(epsilon*N)+1 minus the number of subsets violated by the current point; none of its internal assertions fails.", "quantifier": "every partition, every infeasible point leaving at most floor(epsilon*N) subsets violated, every random outcome", "why_tests_cant": "all partitions, points and shuffles", "anchors": ["src/refiner/Refiner.py:refine", "src/refiner/RandomRefiner.py"]}
{"id": "C23", "title": "Cost refinement keeps a partition", "statement": "refine with the cost refiner returns a partition of 0..N-1 without empty subsets with exactly mu more subsets, for every solution the split-selection model may return and every content of the memory built by earlier calls; none of its internal assertions fails.", "quantifier": "every instance with non-negative capacities (C68 covers the others), partition, infeasible point, solver answers and history of earlier refinements", "why_tests_cant": "all histories", "anchors": ["src/refiner/CostRefiner.py", "src/refiner/Refiner.py:refine"]}
{"id": "C24", "title": "Refinement cuts off the current point", "statement": "After refine (random or cost), exactly floor(epsilon*N)+1 subsets are violated by the point that was refined, so that point is infeasible for the new partitioned problem.", "quantifier": "every partition, infeasible point and random/solver outcome", "why_tests_cant": "all points and partitions", "anchors": ["src/refiner/Refiner.py:refine", "src/refiner/Refiner.py:_find_number_of_splits_to_perform"]}
{"id": "C25", "title": "The split loop terminates", "statement": "The while loop of refine performs at most mu rounds whenever the refined point is infeasible for the original problem (more than floor(epsilon*N) violated scenarios).", "quantifier": "every partition, point, shuffle sequence and split answer", "why_tests_cant": "termination of an unbounded loop", "anchors": ["src/refiner/Refiner.py:_split_top_mu_subset"]}
{"id": "C26", "title": "The number of splits is always positive", "statement": "For every point feasible for the partitioned problem the computed number of splits is at least one, so the 'Error when calculating number of splits' assertion cannot fail; it fails for every point violating more than floor(epsilon*N) subsets.", "quantifier": "every partition and point", "why_tests_cant": "all points", "anchors": ["src/refiner/Refiner.py:_find_number_of_splits_to_perform"]}
{"id": "C27", "title": "Memoised splits are valid", "statement": "Whatever sequence of refinements filled it, a split read from the cost refiner's memory for a subset is a split of exactly that subset's scenarios into two parts each containing an infeasible scenario of the current point.", "quantifier": "every history of refine calls", "why_tests_cant": "history-dependent cache", "anchors": ["src/refiner/CostRefiner.py:_evaluate_single_accurate_split"]}
{"id": "C28", "title": "Post-split cost bounds both halves", "statement": "For every feasible solution of the split-selection model, its objective is at least the objective of every point of [0,1]^n satisfying all scenarios of the left half, and likewise for the right half.", "quantifier": "every instance, subset, model solution and point", "why_tests_cant": "weak duality over all points", "anchors": ["src/optim/AccObjModel.py:build", "src/refiner/CostRefiner.py:accurate_obj_split"]}
{"id": "C29", "title": "Split read-out is a partition of the subset", "statement": "get_subsets returns two lists that together contain every scenario of the split subset exactly once, whatever values the solver stores in the assignment variables; if the assignment constraints hold, each half contains an infeasible scenario.", "quantifier": "every subset and variable values", "why_tests_cant": "all solver answers", "anchors": ["src/optim/AccObjModel.py:get_subsets", "src/optim/AccObjModel.py:_add_assignment_constraints"]}
{"id": "C30", "title": "Merging all candidates keeps a partition", "statement": "merge_all(partition, candidates) for distinct valid candidate indices returns a partition with len(candidates)-1 fewer subsets in which the candidates' scenarios form one subset at the smallest candidate index and every other subset is unchanged and in the same order; its size assertion never fails.", "quantifier": "every partition and every list of distinct valid indices in any order", "why_tests_cant": "all partitions and candidate orders", "anchors": ["src/Merger.py:merge_all", "src/Merger.py:_merge_two_subsets_in_partition", "src/Merger.py:_delete_subsets"]}
{"id": "C31", "title": "Feasible merge takes the mu+1 subsets with largest margin", "statement": "merge_feasible merges exactly mu+1 of the candidate subsets, and every candidate left out has a margin not larger than that of every candidate merged.", "quantifier": "every partition, point, candidate list with at least mu+1 entries", "why_tests_cant": "all inputs", "anchors": ["src/Merger.py:merge_feasible", "src/Merger.py:_single_subset_margin"]}
{"id": "C32", "title": "Pairwise merge keeps a partition", "statement": "merge(partition, cands, infeasible) merges pair i into one subset and keeps every scenario exactly once.", "quantifier": "every partition and list of index pairs", "why_tests_cant": "all pair lists", "anchors": ["src/Merger.py:merge"]}
{"id": "C33", "title": "Candidates are sorted by their own cost", "statement": "sort_subset_costs(range(K), costs) lists all subset indices by decreasing cost; find_inf_candidate returns the infeasible subsets with cost at most vUB by decreasing cost.", "quantifier": "every cost list, infeasible list and vUB", "why_tests_cant": "all lists", "anchors": ["src/Merger.py:sort_subset_costs", "src/Merger.py:find_inf_candidate", "src/solver/AdaptivePartitioner.py:_merge_all_feasible_subsets"]}
{"id": "C34", "title": "Merging after a split does not readmit the current point", "statement": "After one refinement followed by either kind of merge, the current point still violates more than floor(epsilon*N) subsets of the new partition.", "quantifier": "every partition, point and outcome", "why_tests_cant": "all states", "anchors": ["src/solver/AdaptivePartitioner.py:_merge"]}
{"id": "C35", "title": "Split followed by merge never raises the bound of the partitioned problem", "statement": "If every point feasible for the partitioned problem before an iteration has objective at most vUB, and merging is performed only when all new subsets cost at most vUB, then every point feasible for the new partitioned problem also has objective at most vUB.", "quantifier": "every partition, point, split and merge outcome", "why_tests_cant": "all points of all partitions", "anchors": ["src/solver/AdaptivePartitioner.py:_merge", "src/UpperBounder.py:_check_results"]}
{"id": "C36", "title": "Stored subset costs stay aligned with the partition", "statement": "At every iteration the i-th stored subset cost and solution are the ones computed for the i-th subset of the current partition, and there is exactly one per subset.", "quantifier": "every execution of solve", "why_tests_cant": "invariant over unbounded histories of splits and merges", "anchors": ["src/solver/AdaptivePartitioner.py:_split", "src/solver/AdaptivePartitioner.py:_post_merge_processing"]}
{"id": "C37", "title": "The merge dispatch is total", "statement": "Whenever merging is attempted during solve, the number of feasible subsets is at least mu (the ValueError branch is unreachable), an infeasible subset to merge with exists, and the partition has floor(epsilon*N)+1 subsets after the all-feasible merge (the assertion holds).", "quantifier": "every execution of solve", "why_tests_cant": "all reachable states", "anchors": ["src/solver/AdaptivePartitioner.py:_merge", "src/solver/AdaptivePartitioner.py:_merge_all_feasible_subsets"]}
{"id": "C38", "title": "Warm start points at surviving subsets", "statement": "get_z_start(zUB, deleted) sets to 1 exactly the new positions of the non-deleted subsets whose previous indicator was 1; during solve every key is a valid indicator index and the deleted list is the one of the last iteration.", "quantifier": "every indicator vector, deleted list and execution", "why_tests_cant": "all histories", "anchors": ["src/Warmstarter.py:get_z_start", "src/solver/AdaptivePartitioner.py:_upper_bound"]}
{"id": "C39", "title": "Naive big-M is valid", "statement": "With the naive big-M every x in [0,1]^n satisfies A_s,i.x <= b_s,i + M_s,i.", "quantifier": "every instance with non-negative A, every x", "why_tests_cant": "all points", "anchors": ["src/BigMFinder.py:_naive_bigM"]}
{"id": "C40", "title": "Continuous knapsack routine is exact", "statement": "For non-negative revenues, weights and capacity, solve_continuous_knapsack returns max{revenue.x - constant : weights.x <= capacity, 0<=x<=1}: no feasible x exceeds it and some feasible x attains it.", "quantifier": "every length, data and tie-breaking of the sort", "why_tests_cant": "greedy optimality over all inputs", "anchors": ["src/song_big_m.py:solve_continuous_knapsack"]}
{"id": "C41", "title": "Continuous knapsack routine never under-estimates", "statement": "solve_continuous_knapsack returns an upper bound of the maximum for arbitrary-sign data or raises an exception.", "quantifier": "every revenues, weights, capacity", "why_tests_cant": "all signs", "anchors": ["src/song_big_m.py:solve_continuous_knapsack"]}
{"id": "C42", "title": "Belotti big-M is valid below the upper bound", "statement": "After run_belotti_et_al_big_M(vUB) every x of the variable domain with objective at most vUB satisfies A.x <= b + M for every constraint of every scenario/subset (continuous and binary variables).", "quantifier": "every instance with non-negative data, every vUB, every x", "why_tests_cant": "all points", "anchors": ["src/BigMFinder.py:run_belotti_et_al_big_M", "src/optim/BigMKnapsackModel.py"]}
{"id": "C43", "title": "Song big-M is valid for chance-feasible points", "statement": "After run_song_et_al_big_m on the original instance every x in [0,1]^n satisfying the chance constraint satisfies A_s,i.x <= b_s,i + M_s,i; the method raises IndexError exactly when floor(epsilon*N)+1 >= N.", "quantifier": "every instance with non-negative data, every epsilon, every x", "why_tests_cant": "all points", "anchors": ["src/BigMFinder.py:run_song_et_al_big_m", "src/BigMFinder.py:_quantile_big_m"]}
{"id": "C44", "title": "Song big-M is valid for partitions", "statement": "After update_big_M(method='song') on a partitioned instance with more than floor(epsilon*N)+1 subsets no IndexError is raised and every x in [0,1]^n feasible for the partitioned chance constraint satisfies A.x <= b + M for every row of every subset.", "quantifier": "every partition, instance and x", "why_tests_cant": "all points", "anchors": ["src/BigMFinder.py:run_song_et_al_big_m", "src/BigMFinder.py:update_big_M"]}
{"id": "C45", "title": "C++ violations are valid upper bounds", "statement": "The entry [s,t,i] returned by the compiled compute_all_violations is at least A_s,i.x - b_s,i for every x in [0,1]^n satisfying scenario t.", "quantifier": "every non-negative A, b, all sizes, every order std::sort may return", "why_tests_cant": "all points and sort outcomes", "anchors": ["violations.h:computeAllViolations", "violations.pyx:compute_all_violations"]}
{"id": "C46", "title": "C++ and Python violations agree", "statement": "compute_all_violations of the compiled module equals compute_all_violations of src/song_big_m.py.", "quantifier": "every non-negative one-decimal A, b", "why_tests_cant": "random tests sample it", "anchors": ["violations.h", "src/song_big_m.py:compute_all_violations"]}
{"id": "C47", "title": "Tightened big-Ms are never larger than naive ones", "statement": "Every Belotti and every Song big-M is at most the naive big-M of the same constraint.", "quantifier": "every instance with non-negative data", "why_tests_cant": "tests check a few files", "anchors": ["src/BigMFinder.py"]}
{"id": "C48", "title": "Big-M and indicator formulations have the same feasible points", "statement": "For each of the naive, Belotti and Song big-Ms, a point x of the domain can be completed by indicators to a solution of the big-M model exactly when it can for the indicator-constraint model (for Belotti: provided the chance-constrained optimum is at most vUB).", "quantifier": "every instance with non-negative data, continuous or binary, every x", "why_tests_cant": "all points", "anchors": ["src/optim/CCLPModel.py:build", "src/optim/OptiModel.py:_add_bigM_constraint"]}
{"id": "C49", "title": "Dropping constraints with negative big-M is exact for continuous variables", "statement": "Constraints whose big-M is below -1e-6 can be left out of the continuous model without adding any feasible point.", "quantifier": "every instance with non-negative data, every valid big-M, every x", "why_tests_cant": "all points", "anchors": ["src/optim/OptiModel.py:_add_bigM_constraint"]}
{"id": "C50", "title": "Bounds bracket the optimum at every point of the run", "statement": "During solve, at every moment (in particular when a timeout interrupt arrives) before the final optimality report, vLB is the objective of a feasible point and vUB is at least the objective of every feasible point.", "quantifier": "every instance, configuration, solver answers, random choices, clock and interruption point", "why_tests_cant": "all executions and crash points", "anchors": ["src/solver/AdaptivePartitioner.py:solve", "main.py:timeout_handler"]}
{"id": "C51", "title": "A feasible stop returns an optimal solution", "statement": "If solve stops because the upper-bound solution is feasible and the last partitioned problem was solved to optimality, then xUB is feasible for the original problem, its objective equals vUB = vLB, and no feasible point is better.", "quantifier": "every execution of solve on an instance with non-negative data, with exact subset costs whose solutions violate no scenario by less than the tolerance 1e-6, and otherwise valid answers of Gurobi", "why_tests_cant": "all executions", "anchors": ["src/solver/AdaptivePartitioner.py:solve"]}
{"id": "C52", "title": "A gap stop certifies relative optimality", "statement": "If solve stops on the gap criterion with vLB > 0, every feasible point has objective at most (1+gap)*vLB and xLB is a feasible point with objective vLB.", "quantifier": "every execution of solve on an instance with non-negative data, with exact subset costs whose solutions violate no scenario by less than the tolerance 1e-6, and otherwise valid answers of Gurobi", "why_tests_cant": "all executions", "anchors": ["src/solver/AdaptivePartitioner.py:solve", "src/solver/Solver.py:_compute_gap"]}
{"id": "C53", "title": "solve terminates without merging", "statement": "With use_merger=False, solve stops after at most N - floor(epsilon*N) iterations even without a time limit.", "quantifier": "every instance and execution", "why_tests_cant": "termination", "anchors": ["src/solver/AdaptivePartitioner.py:solve"]}
{"id": "C54", "title": "solve terminates with merging", "statement": "With use_merger=True, solve stops after finitely many iterations even without a time limit.", "quantifier": "every instance and execution", "why_tests_cant": "termination", "anchors": ["src/solver/AdaptivePartitioner.py:solve", "src/solver/AdaptivePartitioner.py:_merge"]}
{"id": "C55", "title": "solve raises no internal error", "statement": "With a solver that answers every sub-problem, solve never fails one of its internal assertions or raises ValueError/KeyError/IndexError, apart from the numerical 'same solution' check on continuous instances.", "quantifier": "every instance with non-negative data, configuration and execution", "why_tests_cant": "all executions", "anchors": ["src/solver/AdaptivePartitioner.py:solve", "src/UpperBounder.py:_check_results"]}
{"id": "C56", "title": "The time limit is respected", "statement": "The remaining time is never negative and never grows; once it is zero, solve starts no new bounding step and returns at the next check.", "quantifier": "every clock sequence", "why_tests_cant": "all clock readings", "anchors": ["src/TimeManager.py", "src/solver/AdaptivePartitioner.py:solve"]}
{"id": "C57", "title": "MilpSolver solves the chance-constrained problem", "statement": "MilpSolver.solve with indicator constraints, naive, Belotti or Song big-M reports vLB as the objective of a feasible point and vUB as a valid upper bound; if the model is solved to optimality xLB is optimal.", "quantifier": "every instance with non-negative data and solver answer", "why_tests_cant": "all instances", "anchors": ["src/solver/MilpSolver.py:solve", "src/solver/Solver.py:solve_cclp_model"]}
{"id": "C58", "title": "Upper bounds survive the default MIP gap", "statement": "Quantile and subset-cost based upper bounds (and the Belotti big-Ms built on them) are valid although the subset problems are only solved to Gurobi's default relative gap 1e-4.", "quantifier": "every binary instance and solver answer within the gap", "why_tests_cant": "solver answers within tolerance", "anchors": ["src/Evaluator.py:subset_cost", "src/UpperBounder.py", "src/solver/MilpSolver.py:_compute_big_m"]}
{"id": "C59", "title": "The reported solution is the feasible one", "statement": "When solve stops because the upper-bound solution is feasible, the reported xUB/xLB is that feasible solution, even if the partitioned problem is only solved to the relative gap 1e-8 set by the code.", "quantifier": "every execution and solver answer within the gap", "why_tests_cant": "solver answers within tolerance", "anchors": ["src/solver/AdaptivePartitioner.py:_upper_bound", "src/solver/AdaptivePartitioner.py:solve"]}
{"id": "C60", "title": "Result rows have the columns the exporter reads", "statement": "In the row written by either solver the exporter's row[-1], row[-4], row[-6] and row[10] are the gap, the computation time, the number of iterations (adaptive) and the big-M time (MILP).", "quantifier": "every run that writes a row", "why_tests_cant": "all runs", "anchors": ["src/solver/MilpSolver.py:write_all_computation_details", "src/solver/AdaptivePartitioner.py:write_all_computation_details", "src/export/format_results.py", "export_results.py"]}
{"id": "C61", "title": "A result row can be written after every run", "statement": "write_all_computation_details succeeds after solve for every accepted configuration of both solvers.", "quantifier": "every configuration", "why_tests_cant": "all configurations", "anchors": ["src/Informer.py:adaptive_details", "src/solver/MilpSolver.py:write_all_computation_details"]}
{"id": "C62", "title": "main.py can run every method", "statement": "For METHOD in 1..4 main.py calls solve with arguments accepted by the solver's signature.", "quantifier": "all methods", "why_tests_cant": "methods 3 and 4 are never run by tests", "anchors": ["main.py", "src/solver/AdaptivePartitioner.py:solve"]}
{"id": "C63", "title": "Exporter reads the files main.py writes", "statement": "The result-file path built by read_single_experiment for (instance, N, id, epsilon, continuous, method) equals the path main.py writes for that experiment.", "quantifier": "every instance name, N, id, epsilon that is a whole percentage, flag and method", "why_tests_cant": "all names", "anchors": ["main.py", "src/export/format_results.py:read_single_experiment"]}
{"id": "C64", "title": "Summary statistics are right", "statement": "format_method reports the number of instances with gap at most the required gap, the mean time if all are solved and the mean gap otherwise, and the mean number of iterations for adaptive methods. Infinities and nan in the table are treated as in IEEE arithmetic: nan and inf do not count as solved, and a mean with nan or with both infinities is nan.", "quantifier": "every table of results", "why_tests_cant": "all tables", "anchors": ["src/export/format_results.py:format_method"]}
{"id": "C65", "title": "The exporter highlights a best method", "statement": "The cell put in bold in the summary table belongs to a method with minimal mean time among those that solved everything, or, if none did, to one with minimal gap among those that solved the most instances.", "quantifier": "every result table whose gaps are numbers or inf", "why_tests_cant": "all tables", "anchors": ["export_results.py"]}
{"id": "C66", "title": "Bounds evolve monotonically", "statement": "During solve vLB never decreases and vUB never increases by more than 1e-8 in one update.", "quantifier": "every execution and solver answer", "why_tests_cant": "all executions", "anchors": ["src/solver/AdaptivePartitioner.py:_upper_bound", "src/solver/AdaptivePartitioner.py:_lower_bound"]}
{"id": "C67", "title": "Adding scenarios never increases a subset's cost", "statement": "The optimal value of the deterministic problem of a set of scenarios is at most that of any of its subsets, and does not depend on the order or repetition of scenarios.", "quantifier": "every instance and pair of scenario lists", "why_tests_cant": "all scenario lists", "anchors": ["src/Evaluator.py:subset_cost", "src/optim/DeterModel.py:build"]}
{"id": "C68", "title": "Cost refinement needs non-negative capacities", "statement": "For instances with negative capacities refine with the cost refiner is not safe: on some instance, for a point feasible for the partitioned problem and infeasible for the original one, it raises KeyError for every exact solver and every valid upper bound.", "quantifier": "every exact solver, argsort outcome, subset costs and upper bound at least the optimal value, on the exhibited instance", "why_tests_cant": "the sentinel -1e6 is only wrong for costs no test instance reaches", "anchors": ["src/refiner/CostRefiner.py:_perform_accurate_split"]}
{"id": "C69", "title": "Certificates on binary instances read from a file", "statement": "On a parsed instance with binary variables and non-negative data, with exact subset costs and valid answers to all other problems: every pair of bounds ever stored brackets the optimal value; a stop on the gap criterion returns a feasible xLB within the required gap of the optimum; a feasible stop with partitioned problems solved to optimality returns an optimal solution xUB = xLB with vUB = vLB.", "quantifier": "every file, epsilon, configuration, random choice, clock, solver answers and number of iterations", "why_tests_cant": "all executions", "anchors": ["src/solver/AdaptivePartitioner.py:solve", "src/instance/ChanceKnapInstance.py"]}
{"id": "C70", "title": "The row names the big-M method", "statement": "The big_m_method column of a row written after MilpSolver.solve with big-Ms identifies the method (naive, belotti or song) that was used.", "quantifier": "every instance, method and solver answer", "why_tests_cant": "the codes are only compared across runs, never inside one test", "anchors": ["src/solver/MilpSolver.py:solve", "src/solver/MilpSolver.py:write_all_computation_details"]}
{"id": "C71", "title": "Instances counted as solved are solved", "statement": "The exporter counts a run as solved exactly if its relative gap is at most 1e-4.", "quantifier": "every run that writes a row with a non-zero lower bound", "why_tests_cant": "the gap passes through a rounded text; only gaps close to the threshold tell", "anchors": ["src/export/format_results.py:format_method", "src/solver/Solver.py:_get_computation_details", "export_results.py"]}
{"id": "C72", "title": "Generated instances satisfy the assumptions of the solver", "statement": "From an OR-library file the generator writes the requested number of csv files under the names run_all_experiments.sh uses; each parses to an instance of the announced sizes whose data are the file's objective and capacities and the clipped draws up to rounding; with non-negative objective and capacities all data are non-negative, so that runs of the adaptive solver on binary variables end with certified solutions.", "quantifier": "every OR-library file, number of scenarios and instances, and every outcome of the random draws", "why_tests_cant": "random draws; tests read a handful of stored files", "anchors": ["data/cc-instances/knapsack/instance-generator.py", "src/instance/ChanceKnapInstance.py", "run_all_experiments.sh"]}
{"id": "C73", "title": "The iteration log follows the run", "statement": "The file of write_iteration_details lists, in the order of the iterations and with at most two lines each, the bounds vLB and vUB the run had at that time and their relative gap in percent.", "quantifier": "every run, however it ends", "why_tests_cant": "all executions; the signs are not compared with the bounds by any test", "anchors": ["src/Informer.py:store_iteration_info", "src/solver/AdaptivePartitioner.py:write_iteration_details", "src/solver/AdaptivePartitioner.py:_upper_bound", "src/solver/AdaptivePartitioner.py:_lower_bound"]}
{"id": "C74", "title": "Experiments do not overwrite each other", "statement": "Instances of different sizes or numbers are generated into different files, and main.py writes different experiments (generated instance, whole percentage, kind of variables, method) to different files.", "quantifier": "all sizes, numbers, percentages, flags and methods", "why_tests_cant": "injectivity over all names", "anchors": ["data/cc-instances/knapsack/instance-generator.py", "main.py"]}
{"id": "C75", "title": "Lower-bound problems keep the least violated scenarios", "statement": "With projection_method='rescaled_max_violation' every lower-bound problem solved during solve is built from the upper-bound solution stored last, and no scenario in it is violated more severely by that solution than a scenario left out, where severity is the largest row excess divided by the norm of the row, excesses below 1e-3 counting as 0; if a scenario left out is satisfied up to 1e-3, all scenarios in the problem are.", "quantifier": "every instance, configuration, solver answer, tie-breaking and number of iterations, with a clock that does not run backwards", "why_tests_cant": "all executions; the ordering is only visible through the quality of later bounds", "anchors": ["src/LowerBounder.py:_get_scenarios_violation_index", "src/LowerBounder.py:_get_selected_scenarios", "src/solver/AdaptivePartitioner.py:_lower_bound"]}
{"id": "C76", "title": "The feasibility counter counts satisfied scenarios", "statement": "Throughout solve feasibility_counter[s] is the number of stored upper-bound solutions that satisfy scenario s up to 1e-6, and with projection_method='counter' every scenario in a lower-bound problem was satisfied at least as often as every scenario left out.", "quantifier": "every instance, configuration, solver answer, tie-breaking and number of iterations, also when solve ends with an exception", "why_tests_cant": "history of a whole run", "anchors": ["src/LowerBounder.py:save_feasible_scenarios", "src/LowerBounder.py:_get_index_scenarios", "src/solver/AdaptivePartitioner.py:_upper_bound"]}
{"id": "C77", "title": "Running out of time is not an error", "statement": "When the time limit passes during AdaptivePartitioner.solve or MilpSolver.solve, the call returns normally with the bounds reached so far; no exception is raised because the time has run out.", "quantifier": "every instance, configuration, solver answer and clock that does not run backwards", "why_tests_cant": "depends on the moment at which the limit passes; tests never come near it", "anchors": ["src/solver/Solver.py:solve_cclp_model", "src/solver/AdaptivePartitioner.py:_upper_bound", "src/solver/MilpSolver.py:solve", "src/TimeManager.py:get_remaining_time"]}
{"id": "C78", "title": "The certificate survives Gurobi's default gap", "statement": "With the subset problems solved only within Gurobi's default MIPGap of 1e-4, as Evaluator solves them, the results of AdaptivePartitioner.solve (any configuration without Belotti's big-Ms) are right up to this gap: no feasible objective exceeds the larger of vUB and vLB by more than the factor 1 + 1e-4 at any time, vLB is always the value of a feasible point, a stop on the gap criterion returns a feasible xLB within the factor (1 + 1e-4)(1 + gap) of every feasible value, and a feasible stop returns a feasible xLB within the factor 1 + 1e-4.", "quantifier": "every instance with non-negative data, configuration without Belotti's big-Ms, and solver whose subset answers meet the default gap and whose other answers are valid", "why_tests_cant": "test instances are solved to optimality by the presolve; the gap only shows on larger ones", "anchors": ["src/Evaluator.py:subset_cost", "src/solver/AdaptivePartitioner.py:solve", "src/solver/AdaptivePartitioner.py:_upper_bound"]}
{"id": "C79", "title": "Certificates hold up to the tolerance, also with continuous variables", "statement": "With exact subset costs, solutions that may violate scenarios by less than the tolerance 1e-6 (as is_feasible allows, and as continuous variables or fine data permit) and any configuration, the results of AdaptivePartitioner.solve are right up to this tolerance: at any time no feasible objective exceeds both vUB and vLB and vLB is the objective of a point that violates at most epsilon*N scenarios by more than 1e-6; a stop on the gap returns such a point as xLB with no feasible objective above (1 + gap)*vLB; a feasible stop, with the partitioned problems solved to optimality, returns such a point as xUB = xLB with vUB = vLB its objective, and no feasible objective exceeds both vUB and all earlier lower bounds.", "quantifier": "every instance with non-negative data, continuous or binary, every configuration and every number of iterations", "why_tests_cant": "tests use data on a coarse grid, where violations within the tolerance do not occur", "anchors": ["src/instance/ChanceKnapInstance.py:is_feasible", "src/solver/AdaptivePartitioner.py:solve", "src/LowerBounder.py", "main.py"]}
{"id": "C80", "title": "The announced solution solves the problem", "statement": "When AdaptivePartitioner.solve prints 'Found optimal solution of CCLP' with a solution and an objective, the printed solution is feasible for the chance-constrained problem, has the printed objective, and no feasible solution exceeds it by more than the required relative gap.", "quantifier": "every instance with non-negative data and every run that prints the announcement, all problems being solved to optimality", "why_tests_cant": "the printed vector is not compared with the constraints by any test", "anchors": ["src/solver/AdaptivePartitioner.py:solve", "src/solver/AdaptivePartitioner.py:_upper_bound"]}
{"id": "C81", "title": "solve stops for one of three reasons", "statement": "If AdaptivePartitioner.solve returns, then either the last upper-bound solution is accepted by is_feasible and no earlier one was, or no upper-bound solution was accepted and the time limit has passed, or no upper-bound solution was accepted and the relative gap of the known final bounds is at most the required gap; iteration counts the upper-bound solutions, up to one interrupted by the time limit.", "quantifier": "every instance, configuration, solver answer and clock that does not run backwards", "why_tests_cant": "all executions", "anchors": ["src/solver/AdaptivePartitioner.py:solve", "src/solver/AdaptivePartitioner.py:_upper_bound", "src/solver/AdaptivePartitioner.py:_lower_bound", "src/instance/ChanceInstance.py"]}
{"id": "C82", "title": "Runs are reproducible", "statement": "Two runs of AdaptivePartitioner on the same instance with the same parameters, the same clock and the same answers of Gurobi end in the same way and in the same state; the random seed only matters when the first partition or the splits are chosen at random, the split-selection problems only with splits by cost, and the big-M problems and the external sort only with big-Ms.", "quantifier": "every instance, configuration, solver answers, random choices, clock and number of iterations", "why_tests_cant": "independence of two executions; a test compares only single seeds", "anchors": ["main.py", "src/Initializer.py", "src/refiner/RandomRefiner.py", "src/solver/AdaptivePartitioner.py"]}
{"id": "C83", "title": "A longer time limit only continues the run", "statement": "A run of AdaptivePartitioner.solve with a larger time limit that sees the same clock, random choices and answers of Gurobi either ends exactly like the run with the smaller limit, or the smaller limit had passed and the bounds and rows of the iteration log of the shorter run are a prefix of those of the longer one; its lower bound is then at least as good.", "quantifier": "every instance, configuration, pair of time limits, solver answers and clock that does not run backwards", "why_tests_cant": "compares two whole executions at every possible moment of interruption", "anchors": ["src/solver/AdaptivePartitioner.py:solve", "src/TimeManager.py:get_remaining_time", "src/solver/Solver.py:solve_cclp_model"]}
{"id": "C84", "title": "Rejected solutions do not come back", "statement": "Two consecutive upper-bound solutions of AdaptivePartitioner.solve never coincide, and without merging no upper-bound solution ever occurs twice: once a solution has been rejected, the refined partition excludes it for the rest of the run.", "quantifier": "every instance with non-negative data, configuration, exact subset costs whose solutions violate no scenario by less than the tolerance 1e-6, otherwise valid answers and every number of iterations, however the run ends", "why_tests_cant": "all executions; a cycle only shows after many iterations", "anchors": ["src/solver/AdaptivePartitioner.py:solve", "src/solver/AdaptivePartitioner.py:_split", "src/solver/AdaptivePartitioner.py:_merge", "src/refiner/Refiner.py"]}
{"id": "C85", "title": "All methods agree", "statement": "On the same instance no lower bound of one run of AdaptivePartitioner ever exceeds an upper bound of another run, and two runs that finished (adaptive with any configuration, or the extended formulation with any big-Ms or indicator constraints) report values that agree up to their gaps: neither exceeds the other by more than the factor 1 + gap.", "quantifier": "every instance with non-negative data of which no point violates a scenario by less than the tolerance 1e-6, such as the binary ones read from files, and every pair of configurations, methods, random choices, exact subset costs and otherwise valid solver answers", "why_tests_cant": "compares two whole executions of different algorithms; tests compare single small instances", "anchors": ["main.py", "src/solver/AdaptivePartitioner.py:solve", "src/solver/MilpSolver.py:solve", "src/BigMFinder.py"]}
{"id": "C86", "title": "The big-M table has every mean in its place", "statement": "For every instance name, export_results.py writes a table of big-M times with one row for each number of scenarios, in their order: the mean time spent on Song's big-Ms over all ids, risk levels and both kinds of variables, then the mean time of Belotti's big-Ms over the files with continuous and over those with binary variables, each with two decimals and the unit, and a dash if one of the files is missing; the name is printed in the first row only.", "quantifier": "every folder of result files, numbers of instances, ids, scenarios and risk levels", "why_tests_cant": "four nested loops with index arithmetic into one flat table; tests have no result files", "anchors": ["export_results.py", "src/export/format_results.py:read_single_experiment"]}
{"id": "C87", "title": "The result tables have every result in its place", "statement": "export_results.py writes one table for every instance name and kind of variables, whose row e*nb_scenarios + s shows exactly the results read from the files of this instance, kind, risk level e and number of scenarios s, with the name printed once, the risk level once per block and the best method in bold; it raises no exception however many files are missing, provided the others are rows as the solvers write them.", "quantifier": "every folder of result files, numbers of instances, ids, scenarios and risk levels", "why_tests_cant": "index arithmetic into one flat table that is then cut into files; a shift would show plausible numbers of another experiment", "anchors": ["export_results.py", "src/export/format_results.py"]}
{"id": "C88", "title": "The saved history of bounds is complete and dated", "statement": "With save_bounds=True, MilpSolver.solve writes to path one row for every change of Gurobi's incumbent value or bound, in their order and without repetition, with the time since the start of the method and both numbers with opposite sign, so that every row brackets the optimum; saving does not change the result, and the file is also written when the user interrupts the optimization.", "quantifier": "every instance, big-M method, sequence of callbacks and clock that does not run backwards", "why_tests_cant": "the sequence of callbacks and their moments are up to Gurobi; tests do not run it", "anchors": ["src/optim/OptiModel.py:_save_bounds_callback", "src/optim/OptiModel.py:solve", "src/solver/MilpSolver.py:solve", "src/solver/Solver.py:solve_cclp_model"]}
{"id": "C89", "title": "A result row is a certificate", "statement": "Reading back the last three columns of a result row that write_all_computation_details wrote (lower bound, upper bound, gap in percent, three decimals) tells the truth about the problem, whether the solver finished, ran out of time or was interrupted: a feasible point has the printed lower bound as objective, no feasible point exceeds the printed upper bound, and no feasible point is better than that feasible point by more than the printed gap, all up to rounding; without a solution the lower bound and the gap are infinite.", "quantifier": "every instance with non-negative data, method, configuration, solver answer, clock and moment of interruption", "why_tests_cant": "end-to-end over the solver, the gap, the formatting and the reader; the row is only as good as the worst execution before it", "anchors": ["main.py", "src/solver/Solver.py", "src/solver/MilpSolver.py:write_all_computation_details", "src/solver/AdaptivePartitioner.py:write_all_computation_details", "src/Informer.py", "src/export/format_results.py:read_single_experiment"]}
{"id": "C90", "title": "The documented workflow delivers the right results", "statement": "After generate-all-instances.sh, run_all_experiments.sh (starting with an empty folder of results) and the loading step of export_results.py, with the constants of these scripts, the entry for every combination of kind, instance, number of scenarios, id, risk level and method is the result of that method on the instance generated from the OR-library file of that name with that many scenarios: no file is overwritten by another experiment, looked for under another name or made from another OR-library file, and the entry is a certificate for that instance.", "quantifier": "every outcome of the random draws, every behaviour of Gurobi and the clock in every run, every earlier content of the folder of instances", "why_tests_cant": "composition of four programs that only agree through file names; runs for weeks", "anchors": ["run_all_experiments.sh", "data/cc-instances/knapsack/generate-all-instances.sh", "data/cc-instances/knapsack/instance-generator.py", "main.py", "export_results.py", "src/export/format_results.py:read_single_experiment", "src/instance/ChanceInstance.py:get_file_name"]}
{"id": "C91", "title": "Rounding errors do not change the decisions", "statement": "Computed in double precision, with data of one decimal, a whole percentage as risk level and any order of summation, the decisions of the code are those of exact arithmetic: the flagged scenarios of a binary point are exactly the violated ones (for a fractional point those violated by more than a tolerance between 8e-7 and 1.2e-6), is_feasible accepts a binary point if and only if it satisfies the chance constraint, floor(epsilon*N) is the largest number of scenarios that may be violated, ahmed_et_al_bound picks the scenario of the right quantile and _get_selected_scenarios keeps the right number of scenarios.", "quantifier": "every instance of moderate size, point, whole percentage, order and bracketing of the summation and rounding error", "why_tests_cant": "rounding errors depend on the data, on the number of scenarios and on the BLAS; single tests do not meet the critical cases", "anchors": ["src/instance/ChanceKnapInstance.py:_get_constraint_violation", "src/instance/ChanceKnapInstance.py:is_feasible", "src/UpperBounder.py:ahmed_et_al_bound", "src/LowerBounder.py:_get_selected_scenarios", "src/refiner/Refiner.py", "src/solver/AdaptivePartitioner.py:__init__", "src/BigMFinder.py"]}
{"id": "C92", "title": "The compiled violation routine has defined behaviour", "statement": "Called with a non-negative array A of shape (N, m, n) and b of shape (N, m), compute_all_violations computes no int outside 32 bits, reads and writes no element outside its arrays, gives std::sort a strict weak order (with the products of the comparison exact; rounded ones are the subject of a separate property) and terminates, provided that N*N*m and N*m*n are at most 2^31; its result is then the one computed with unbounded integers. For m >= 2 this limit is sharp: the routine has defined behaviour only if N*N*m <= 2^31 and N*m*n < 2^31 + n. With 10000 scenarios of 30 constraints, or with negative coefficients, the behaviour is undefined.", "quantifier": "every number of scenarios, constraints and variables, every non-negative data, every implementation of std::sort", "why_tests_cant": "undefined behaviour need not show in a test, and the overflow needs arrays of many gigabytes", "anchors": ["violations.h:computeAllViolations", "violations.h:compute", "violations.h:update", "violations.h:Comp", "violations.pyx:compute_all_violations"]}
{"id": "C93", "title": "The sorting of the compiled routine is defined in double precision", "statement": "With the products rounded to double precision, the comparison that violations.h gives to std::sort is a strict weak order on the items of every pair of rows, so that sorting is defined and puts the items in the order of their ratios: it never contradicts the exact ratios, has no cycle of any length, and decides every pair of different ratios rightly for data of one decimal.", "quantifier": "every number of items and all non-negative rows of data", "why_tests_cant": "needs three items whose rounded products disagree on a tie; the undefined behaviour then need not show", "anchors": ["violations.h:Comp", "violations.h:compute"]}
{"id": "C94", "title": "Certificates survive the tolerances of Gurobi", "statement": "Even if every solution that Gurobi returns satisfies the constraints and the integrality only up to the tolerances in force (1e-9 for partitioned problems, Gurobi's defaults for the others) and the subset problems are solved only within the default gap, then on binary instances with data of one decimal and moderate size: at every moment of a run no feasible point exceeds the larger of the two bounds by more than one part in 10000; the reported lower bound is, up to 1e-5 times the sum of the values, the objective of the feasible point obtained by rounding the reported solution; a run that stops on its gap is optimal up to both gaps; and the extended formulation reports a solution that rounds to a feasible point, with a true upper bound.", "quantifier": "every binary instance of moderate size with data of one decimal, every configuration without Belotti's big-Ms, every answer of the solver within its tolerances", "why_tests_cant": "the deviations inside the tolerances depend on the simplex basis and the presolve of Gurobi; a test sees one of them", "anchors": ["src/solver/Solver.py:solve_cclp_model", "src/solver/AdaptivePartitioner.py:solve", "src/solver/MilpSolver.py:solve", "src/optim/OptiModel.py", "src/instance/ChanceKnapInstance.py:check_feasibility", "src/LowerBounder.py"]}
{"id": "C95", "title": "Runs do not abort because of the tolerances of Gurobi", "statement": "Whatever the solver returns for a partitioned problem within the tolerances 1e-9 that solve_cclp_model sets, with indicator constraints or with big-Ms, the solution violates at most floor(epsilon*N) subsets by more than the tolerance of the evaluator, so that either check_feasibility accepts it or the refiner returns a finer partition without an assertion error.", "quantifier": "every instance with non-negative data, partition and answer of the solver within its tolerances", "why_tests_cant": "needs an answer at the edge of the tolerances, which no test can ask Gurobi for", "anchors": ["src/solver/Solver.py:solve_cclp_model", "src/optim/OptiModel.py:_add_single_bigM_constraint", "src/instance/ChanceKnapInstance.py:check_feasibility", "src/refiner/Refiner.py:refine"]}
{"id": "C96", "title": "The compiled violations are accurate in double precision", "statement": "On non-negative data of one decimal and moderate size, with every operation of violations.h rounded to double precision, each entry of compute_all_violations is within (n+10)(R+c+1)/2^52 of the exact value, where R bounds the row sums and c the capacities (less than 1e-7 for all sizes covered, less than 1e-9 for 100 variables with row sums up to 20000): the least of the maxima of A_si x - b_si over the points of the box that satisfy one other row of scenario t. The stopping rules with 1e-6, the early exit and the repeated sorting of one index array do not add to that error. Consequently the big-Ms of Song's method taken from these numbers, with the quantile index also computed in doubles, relax every row for every feasible point up to that error, and differ from those of exact arithmetic by no more.", "quantifier": "every one-decimal instance of moderate size whose sorts are defined, every implementation of std::sort, every number of scenarios up to 2^40", "why_tests_cant": "errors of one rounding are invisible in tests, while a wrong branch at the capacity would change a big-M by a whole coefficient", "anchors": ["violations.h:update", "violations.h:compute", "violations.h:computeAllViolations", "violations.pyx:compute_all_violations", "src/BigMFinder.py:_quantile_big_m"]}
{"id": "C97", "title": "Rounded coefficients do not change the chance-constrained problems", "statement": "The problems that Gurobi receives have coefficients rounded to double precision (data, normalised probabilities, risk level of the partition, right-hand sides with big-Ms), yet every feasible point of the exact problem violates no rounded constraint by more than 2e-10, a fifth of the tolerance set by solve_cclp_model; every point accepted within the tolerance 1e-9 satisfies the exact constraints up to 1.2e-9; and an answer to the rounded problem is an answer to the exact one: up to the rounding of the objective, its bound holds for all points with at most floor(epsilon*N) violated subsets, and its solution rounds to such a point. The same holds for the extended formulation. Without the tolerance this would be false: in seven of the eight settings of the experiments a point that uses the risk level exactly is excluded by the rounded chance constraint.", "quantifier": "every instance of moderate size with at most 90000 equiprobable scenarios, every partition into more than floor(epsilon*N) subsets, every order of summation, big-Ms up to 10^6", "why_tests_cant": "the rounding errors depend on the number of scenarios, the partition and the order of summation; an excluded point shows only as a slightly worse optimum", "anchors": ["src/instance/PartitionChanceKnapInstance.py:load_partition", "src/optim/OptiModel.py:_add_chance_constraint", "src/optim/OptiModel.py:_add_bigM_constraint", "src/optim/CCLPModel.py:build", "src/solver/Solver.py:solve_cclp_model"]}
{"id": "C98", "title": "Instance files deliver the numbers of exact arithmetic", "statement": "The file that instance-generator.py writes with numpy doubles, in whatever notation of each number that float reads back as the same double, is read by ChanceKnapInstance (csv text, float conversion, np.round to one decimal in double precision) as the double precision version of the instance that exact arithmetic makes of the same file: every coefficient, capacity and value is the double next to the number with one decimal, also at ties like 0.35 whose double lies below them. That instance has the announced sizes, non-negative data with one decimal, equal probabilities, and its coefficients are the draws (0 for failed items and negative draws) up to 0.0501. The same holds for every file of non-negative numbers with at most four decimals up to 10^10; invalid files raise the same exceptions as in exact arithmetic.", "quantifier": "every number of items, constraints and scenarios, every outcome of the draws up to 10^9, every notation of the numbers", "why_tests_cant": "half of all ties have a double on the wrong side; a single wrong rounding changes a coefficient by 0.1 without any error", "anchors": ["data/cc-instances/knapsack/instance-generator.py", "src/instance/ChanceInstance.py:read_data", "src/instance/ChanceKnapInstance.py:_parse_model_data", "src/instance/ChanceKnapInstance.py:_parse_indices"]}
{"id": "C99", "title": "CSV files are read as they were written", "statement": "Every table of texts written with csv.writer, with commas, quotes, line breaks, empty texts or empty rows anywhere, is read back by csv.reader as the same table; read_table, which opens the file with translation of line ends, returns the row written if no text contains a carriage return; and read_single_experiment returns for every result row the values that the row stands for, rounded to double precision, whatever the name of the instance. Read as an instance file, a written table is accepted by the csv reader exactly if every field that is neither empty nor quoted is a number for Python's float, and then as the doubles next to these numbers; otherwise it is refused, as is a result file with such a cell after the name and a carriage return outside quotes that ends no line; quotes that are never closed take the rest of the file as one more field without changing the rows before.", "quantifier": "all tables of texts, all result rows, all names without carriage returns", "why_tests_cant": "the characters that need quotes do not occur in the names used by the experiments", "anchors": ["src/export/format_results.py:read_table", "src/export/format_results.py:write_table", "src/export/format_results.py:read_single_experiment", "src/solver/MilpSolver.py:write_all_computation_details", "src/solver/AdaptivePartitioner.py:write_all_computation_details"]}
{"id": "C100", "title": "A call of main.py does what its arguments say and touches no other file", "statement": "main.py accepts exactly the argument lists with at least five entries whose second and fourth are notations of an integer and whose third is a notation of a number that Python's int and float accept; it then uses the file of the first argument, continuous variables exactly if the second is 1, the double next to the third as risk level, the method of the fourth, and the fifth as prefix of the result files, and ignores further arguments. Other lists raise IndexError or ValueError and leave the disk as it is. Whatever happens in a call, the only files that change are <prefix><instance>-<percent>-<0 or 1>-<method>.csv and the same name with -iter, only with methods 1 and 2, and the only folders made are the prefix and its parents; a call that ends without exception leaves in the first file the row of that method on that instance, which read_single_experiment reads back; an unknown method raises NameError without writing a file, after the instance has been read. The calls of run_all_experiments.sh are read as the experiments they stand for. A prefix that does not end with a slash puts no result into the folder that is made.", "quantifier": "every list of arguments, every content of the disk, every behaviour of Gurobi and the clock", "why_tests_cant": "the script runs on import and has no function to test; notations and disks are infinitely many", "anchors": ["main.py", "run_all_experiments.sh", "src/instance/ChanceInstance.py:read_data", "src/instance/ChanceInstance.py:get_file_name", "src/solver/MilpSolver.py:write_all_computation_details"]}
{"id": "C101", "title": "Method 1 is right in double precision", "statement": "MilpSolver.solve with the big-Ms of Song's method, with the compiled violations, the quantiles, the right-hand sides and all data in double precision, returns bounds that hold for the exact problem: no feasible point exceeds vUB by more than the rounding of the objective, xLB is within 1e-9 of a feasible point in every component, vLB is the objective of that point up to 1e-9 times the sum of the values, and if the gap is closed the point is optimal up to it. The big-Ms are doubles that relax every row for every feasible point up to 7e-10, less than the tolerance of Gurobi. If floor(epsilon*N) + 1 >= N the method ends with IndexError.", "quantifier": "every binary instance with data of one decimal, moderate size and at most 100 variables, every implementation of std::sort, every answer of Gurobi within the tolerances that solve_cclp_model sets", "why_tests_cant": "the errors of the violations, of the quantile and of the right-hand sides add up; a cut-off optimum would only show as a slightly worse result", "anchors": ["src/solver/MilpSolver.py:solve", "src/BigMFinder.py:run_song_et_al_big_m", "src/BigMFinder.py:_quantile_big_m", "violations.h:computeAllViolations", "src/solver/Solver.py:solve_cclp_model", "src/optim/OptiModel.py:_add_bigM_constraint"]}
{"id": "C102", "title": "Values on a coarse grid make the default gap of the subset problems harmless", "statement": "The subset problems are solved with Gurobi's default relative gap of 1e-4. If the variables are binary and the values of the items are whole multiples of a unit with a sum of at most 10000 units, every answer within that gap is optimal, so that all certificates of exact answers hold, with every choice of big-Ms: the bounds bracket every feasible point at all times, a stop on the gap certifies the reported solution up to the gap, a stop on feasibility reports an optimum, and MilpSolver with Belotti's big-Ms returns true bounds. The bound of 10000 units is sharp. The OR-library files 1, 3, 4, 5 and 8 meet the condition, among them those behind ccmknap-20-10 and ccmknap-40-30 of the experiments; the files 2, 6 and 7 do not.", "quantifier": "every binary instance with such values, every answer of the solver within the default gap, every configuration and every way a run ends", "why_tests_cant": "a test sees one answer of Gurobi, and the harm needs two solutions whose values differ by less than one part in 10000", "anchors": ["src/Evaluator.py:subset_cost", "src/optim/DeterModel.py", "src/UpperBounder.py", "src/BigMFinder.py:run_belotti_et_al_big_M", "src/solver/MilpSolver.py:_compute_big_m", "src/solver/AdaptivePartitioner.py:solve"]}
{"id": "C103", "title": "From an instance file to a certified result in double precision", "statement": "If an instance file of non-negative numbers with at most four decimals is written in any notation that float reads back as the same doubles, and read, rounded and solved by method 1 in double precision, then the result is certified for the instance that exact arithmetic makes of the same numbers: no feasible point of that instance exceeds vUB by more than the rounding of the objective, xLB is within 1e-9 of a feasible point, vLB is its objective up to 1e-9 times the sum of the values, and if the gap is closed that point is optimal up to it. The same holds for the files that instance-generator.py makes of an OR-library file, whatever it draws, with the draws as written.", "quantifier": "every file of such numbers and every notation of them, every outcome of the draws, every order of the sorts, every answer of Gurobi within the tolerances that solve_cclp_model sets, for binary variables, moderate sizes and at most 100 items", "why_tests_cant": "the rounding errors of writing, reading, rounding to one decimal, the violations, the quantiles and the right-hand sides add up over four programs, and no test can compare with exact arithmetic", "anchors": ["data/cc-instances/knapsack/instance-generator.py", "src/instance/ChanceInstance.py:read_data", "src/instance/ChanceKnapInstance.py:_parse_model_data", "violations.h:computeAllViolations", "src/BigMFinder.py:run_song_et_al_big_m", "src/solver/MilpSolver.py:solve"]}
{"id": "C104", "title": "Method 2 survives the tolerances of Gurobi", "statement": "MilpSolver.solve with Belotti's big-Ms, with single-scenario problems, big-M problems and the extended formulation answered within the tolerances and gaps that Gurobi has for each of them, returns a solution that rounds to a feasible point with objective vLB, and a bound vUB that no feasible point exceeds.", "quantifier": "every binary instance of one decimal and moderate size, every answer of Gurobi within its tolerances and gaps", "why_tests_cant": "needs an answer at the edge of IntFeasTol for a single-scenario problem, which no test can ask Gurobi for; the wrong result is reported as optimal with gap 0", "anchors": ["src/solver/MilpSolver.py:_compute_big_m", "src/BigMFinder.py:run_belotti_et_al_big_M", "src/BigMFinder.py:_set_gurobi_params", "src/Evaluator.py:subset_cost", "src/UpperBounder.py", "src/solver/Solver.py:solve_cclp_model"]}
{"id": "C105", "title": "Method 2 is right in double precision", "statement": "MilpSolver.solve with Belotti's big-Ms, with the data, the sum of the probabilities in the quantile, the big-Ms and the right-hand sides in double precision, returns bounds that hold for the exact problem: no feasible point exceeds vUB by more than the rounding of the objective, xLB is within 1e-9 of a feasible point in every component, and vLB is the objective of that point up to 1e-9 times the sum of the values.", "quantifier": "every binary instance with data of one decimal and moderate size, at most 90000 equiprobable scenarios, every risk level of whole percents, every answer of Gurobi to the problems with rounded coefficients within its tolerances and gaps", "why_tests_cant": "the quantile depends on a sum of thousands of rounded probabilities, and the big-Ms cut off every point above it; a wrong index or a cost below the optimum shows only as a slightly or grossly worse result reported as optimal", "anchors": ["src/solver/MilpSolver.py:solve", "src/solver/MilpSolver.py:_compute_big_m", "src/BigMFinder.py:run_belotti_et_al_big_M", "src/Evaluator.py:get_all_single_scenario_costs", "src/UpperBounder.py:ahmed_et_al_bound", "src/solver/Solver.py:solve_cclp_model", "src/optim/OptiModel.py:_add_bigM_constraint"]}
{"id": "C106", "title": "Continuous instances survive the tolerances of Gurobi and double precision", "statement": "With divisible items, points that Gurobi returns within its tolerances stay near feasible points. In every run of the adaptive method, however it ends, every feasible objective is at most 1 + 1e-4 times the larger of vUB and vLB after each assignment, vLB is the objective of a point within (k+2)*1e-6 of a feasible one, and after a stop on the gap xLB is such a point and, if its value is not negative, best up to (1+1e-4)(1+gap). MilpSolver.solve with indicator constraints, naive or Song big-Ms returns a bound above every feasible objective and a point within (3k+5)*1e-9 of one that satisfies the chance constraint, although rows with negative big-M are left out of the model. With violations, big-Ms, data and right-hand sides in double precision method 1 returns the same up to the rounding of the objective, also from the text of an instance file on, and for the files that instance-generator.py makes of an OR-library file and draws of moderate size.", "quantifier": "every continuous instance with capacities of at least 1 and rows that sum up to at most k times the capacity, every answer of Gurobi within its tolerances; one-decimal data and moderate sizes for the extended formulation", "why_tests_cant": "the tolerance of a row must be turned into a distance to a feasible point, and left-out rows have no tolerance at all; no test can ask Gurobi for the edge of its tolerances", "anchors": ["src/solver/AdaptivePartitioner.py:solve", "src/solver/MilpSolver.py:solve", "src/solver/Solver.py:solve_cclp_model", "src/optim/OptiModel.py:_add_bigM_constraint", "src/BigMFinder.py:run_song_et_al_big_m", "src/instance/ChanceKnapInstance.py:_parse_model_data"]}
{"id": "C107", "title": "Method 2 is right in double precision for divisible items", "statement": "With continuous variables the big-Ms of Belotti's method are computed in Python by solve_continuous_knapsack. In double precision, for items with whole values, the routine returns for every row a double that is at least the violation of that row of the exact instance by any point of the box whose objective is at most the given bound, up to 7e-10, and at most the sum of the row plus 1. So MilpSolver.solve with these big-Ms, with the data, the quantile and the right-hand sides in double precision too, returns a bound vUB that no feasible point of the exact instance exceeds by more than the rounding of the objective, a point xLB within (3k+5)*1e-9 of a feasible one, its objective vLB up to that factor of the sum of the values, and if the gap is closed that point is optimal up to it, although rows with a negative big-M are left out of the model; also from the text of an instance file on, and for the files that instance-generator.py makes of an OR-library file with whole values and draws of moderate size.", "quantifier": "every continuous instance with data of one decimal and moderate size, capacities of at least 1, rows that sum up to at most k times the capacity, at most 100 items with whole values, at most 90000 equiprobable scenarios, every risk level of whole percents, every order of the sort among equal ratios, every answer of Gurobi within its tolerances if the linear problems of the scenarios are solved without a gap", "why_tests_cant": "the greedy order depends on rounded ratios, the last item on a rounded quotient, and the profit on a rounded sum; a big-M below the true violation cuts off points without any error", "anchors": ["src/song_big_m.py:solve_continuous_knapsack", "src/BigMFinder.py:_single_continuous_belotti_iter", "src/BigMFinder.py:run_belotti_et_al_big_M", "src/UpperBounder.py:ahmed_et_al_bound", "src/solver/MilpSolver.py:solve", "src/solver/Solver.py:solve_cclp_model", "src/optim/OptiModel.py:_add_bigM_constraint"]}
{"id": "C108", "title": "The generator reads the text of an OR-library file", "statement": "instance-generator.py reads the lines of an OR-library file as their words if the words are separated by single spaces, with \\n or \\r\\n at the end of the lines and with or without a line end at the end of the file. From a file with the two sizes at the start of the first line, the values in the second, the rows and then the capacities, with numbers in any notation, it writes the requested number of files, under the names that the scripts use; read back in any notation, each of them is the double version of the instance with these sizes, values and capacities and the drawn coefficients, and what method 1 returns for it is certified for the exact instance. If a word of these lines is no number, such as the empty word that a space at the start or the end of a line or a second space makes, it ends with ValueError. A line break among the capacities is not refused: the file that is written has fewer capacities, and one capacity is read as that of all constraints.", "quantifier": "every text of this form, every notation of the numbers, every outcome of the draws; certificates for every answer of Gurobi within its tolerances", "why_tests_cant": "the script runs on import and has no function to test; notations, layouts and draws are infinitely many", "anchors": ["data/cc-instances/knapsack/instance-generator.py", "src/instance/ChanceInstance.py:read_data", "src/instance/ChanceKnapInstance.py:_parse_model_data", "src/solver/MilpSolver.py:solve"]}
{"id": "C109", "title": "The gap and the result row are right in double precision", "statement": "The gap that _compute_gap computes in double precision from finite bounds with a lower bound other than 0 has a relative error of at most 2^-51 and is 0 exactly if the bounds are equal; so a stop at the required gap means that the bounds are that close up to a relative error of 2^-50 of the gap, and bounds closer by this error always lead to the stop. The row that write_all_computation_details writes after methods 1 and 2, with gap and percentages in double precision and three decimals, says the truth when read_single_experiment has read its text: up to 0.00051 and a small multiple of the sum of the values (1.2e-9 for binary variables, 1.2*(3k+5)*1e-9 for divisible items) no feasible point of the exact instance exceeds the upper bound, a feasible point has the lower bound as objective, and if the lower bound is positive no feasible point is better than this one by more than the gap plus 0.00051 percent. This holds from the text of an instance file to the text of the result, and for method 1 from the text of an OR-library file on. A lower bound that is negative within the tolerances gives a negative gap, which the exporter counts as solved.", "quantifier": "every pair of bounds; every instance file and every answer of Gurobi as in C103, C106 and C107, every time measured and every notation of it, every location of the instance file without a carriage return in its name", "why_tests_cant": "the rounded difference, quotient and percentage, the three decimals and the reading of the decimals add up, and no test knows the exact optimum", "anchors": ["src/solver/Solver.py:_compute_gap", "src/solver/Solver.py:_get_computation_details", "src/solver/MilpSolver.py:write_all_computation_details", "src/export/format_results.py:read_single_experiment", "main.py"]}
{"id": "C110", "title": "The summary tables are right in double precision", "statement": "From rows of doubles as read from result files, format_method counts as solved exactly the instances whose printed gap is at most the required gap, and its mean time, mean gap and mean number of iterations are within (3k+2)/2^53 of the mean absolute value of the exact ones, for k instances; a mean is infinite if and only if an entry is. So export_results sets exactly one cell of a row in bold, of a method that is best for means that are right up to this error, and a method with a clearly lowest mean time is not passed over. The table of big-M times shows the means of the printed times within the same error, or - if a file is missing. An instance of methods 1 or 2 that is counted as solved and has a positive lower bound is solved within a factor of 1.000106 up to the tolerances.", "quantifier": "every number of instances up to 2^48, every list of printed gaps, times and iterations, whichever files are missing, every required gap near a whole number of thousandths", "why_tests_cant": "the rounding errors of the sums grow with the number of instances, and the comparison with the required gap is one between a decimal read as a double and a rounded sum", "anchors": ["src/export/format_results.py:format_method", "export_results.py"]}
{"id": "C111", "title": "Runs of methods 1 and 2 that Gurobi finishes come to a result, in double precision", "statement": "If the readings of the clock before Gurobi starts are within the time limit and Gurobi answers every problem with its rounded coefficients within its tolerances and gaps, main.py with method 1 or 2 raises no exception in the solver: no index, type or attribute error, no missing solution and no rejected time limit, and the bounds it ends with are within the required gap. If vLB is not 0 the result row is written, its printed gap is at most 0.010 percent, and export_results counts the instance as solved, so by C109 the row is a certificate (for method 2 with binary variables with the reservation of C105). If vLB is 0, main.py ends with ZeroDivisionError in _compute_gap, and then no feasible point has an objective above the rounding of the objective. Method 1 needs in addition that floor(epsilon N) + 1 < N in double precision, otherwise it ends with IndexError (C101).", "quantifier": "every instance file and notation as in C103, C105, C106 and C107, every monotone clock, every answer of Gurobi within its tolerances and gaps, every location of the instance file", "why_tests_cant": "no test can enumerate the answers of Gurobi and the clock; whether the printed gap of a finished run still counts as solved depends on five roundings", "anchors": ["src/solver/MilpSolver.py:solve", "src/BigMFinder.py", "src/solver/Solver.py:solve_cclp_model", "src/solver/Solver.py:_compute_gap", "src/export/format_results.py:format_method", "main.py"]}
{"id": "C112", "title": "The bounds of the adaptive method hold in double precision", "statement": "In every state of a run of AdaptivePartitioner with indicator constraints, with the data, the sums of probabilities, the objective of candidates, the feasibility check, the number of scenarios to be satisfied, the normalised probabilities of a partition and all comparisons of bounds in double precision, no feasible objective of the exact instance exceeds both (1+1e-4) vUB and (1+1e-4) vLB by more than the rounding of the objective; vLB, once set, is within a little more than 1e-5 times the sum of the values of the objective of a feasible point, from which no component of xLB differs by more than 1e-5. So a stop on the gap computed in double precision, with a positive lower bound, certifies that point up to the factor (1+1e-4)(1+gap), also from the text of an instance file in any notation on; and a stop on a partition solution that check_feasibility accepts certifies it up to 1e-8, or that vLB is best up to 1e-4; the bounds that solve then leaves, if the new bound is stored (otherwise C78), are equal and within 2e-8 times the sum of the values of the objective of a feasible point to which xLB rounds, and within a little more than 1e-5 times it after a stop in the first iteration. The lower bound never falls, the upper one rises in a step by no more than 1e-8 and the rounding errors, and a candidate that replaces the lower bound does not exceed the upper one. With a risk level that is rounded down, as 0.29 with 100 scenarios, the first upper bound may be below the optimal value.", "quantifier": "every binary instance with data of one decimal and moderate size, values up to 10^7 in sum, at most 90000 equiprobable scenarios and 10000 items, every risk level of whole percents whose product with the number of scenarios is not rounded below an integer (C91), every sequence of partitions, candidates and orders of scenarios, every answer of Gurobi to the problems with rounded coefficients within its tolerances and gaps", "why_tests_cant": "pruning, improving and storing compare rounded numbers with absolute tolerances; a candidate or a cluster on the wrong side of one of them cuts off the optimum without any error, in a run of any length", "anchors": ["src/solver/AdaptivePartitioner.py:solve", "src/solver/AdaptivePartitioner.py:_upper_bound", "src/solver/AdaptivePartitioner.py:_lower_bound", "src/solver/AdaptivePartitioner.py:_improve_vlb_with_candidate_sols", "src/UpperBounder.py:partition_bound", "src/LowerBounder.py:_find_best_incumbent", "src/LowerBounder.py:deterministic_bound", "src/solver/Solver.py:_compute_gap"]}
{"id": "C113", "title": "The bounds of the adaptive method hold in double precision for divisible items", "statement": "With continuous variables, in every state of a run of AdaptivePartitioner with indicator constraints and arithmetic in double precision as in C112, no feasible objective of the exact instance exceeds both (1+1e-4) vUB and (1+1e-4) vLB by more than the rounding of the objective, and xLB, once set, is within (k+3)*1e-6 of a feasible point whose objective is vLB up to a little more than this factor of the sum of the values, if rows sum up to at most k times the capacity. So a stop on the gap computed in double precision, with a positive lower bound, certifies that point up to the factor (1+1e-4)(1+gap), also from the text of an instance file in any notation on, and a stop on a solution that check_feasibility accepts, of a partitioned problem or of a subset in the first iteration, leaves equal bounds that are the objective of a feasible point near xLB up to the same tolerance (if the new bound is stored, otherwise C78). The lower bound never falls, and the upper one rises in a step by no more than 1e-8 and the rounding errors.", "quantifier": "every continuous instance of moderate size with capacities of at least 1, rows that sum up to at most k <= 80 times the capacity, values up to 10^7 in sum, at most 90000 equiprobable scenarios and 10000 items, every risk level of whole percents whose product with the number of scenarios is not rounded below an integer (C91), every sequence of partitions, candidates and orders of scenarios, every answer of Gurobi to the problems with rounded coefficients within its tolerances and gaps", "why_tests_cant": "a point of Gurobi cannot be rounded to a feasible one; the tolerance of its rows, the tolerance and the rounding errors of check_feasibility and those of the objective add up over a run of any length, and no test can ask Gurobi for the edge of its tolerances", "anchors": ["src/solver/AdaptivePartitioner.py:solve", "src/solver/AdaptivePartitioner.py:_upper_bound", "src/solver/AdaptivePartitioner.py:_lower_bound", "src/LowerBounder.py:_find_best_incumbent", "src/LowerBounder.py:deterministic_bound", "src/UpperBounder.py:partition_bound", "src/instance/ChanceKnapInstance.py:is_feasible", "src/solver/Solver.py:_compute_gap"]}
