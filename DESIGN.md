# Formal model of AdaptiveCC: design

The code under study is the Python (and one C++ header) in `/repo`
(AdaptiveCC: adaptive partitioning for chance-constrained knapsack problems).
The model and the proofs are in Lean 4 under `lean/Verif`.

## 1. Trusted base

* Lean's kernel (4.33.0) and the standard axioms `propext`, `Classical.choice`,
  `Quot.sound` that Mathlib uses.  No axiom is declared here; there is no
  `sorry`, `admit`, `native_decide` or `bv_decide`.  `Verif/Audit.lean` prints the
  axioms of the property theorems.
* The faithfulness of the hand-written model to the Python text.  Every model
  definition cites file and lines; simplifications are stated there.
* The contracts of what is not in the repository (section 3).

## 2. Numbers and data

* Floats are modelled by exact rationals `ℚ`: no rounding error, no NaN.  `Model/Float.lean` repeats
  the decisions that depend on floats (flags, verdict, floors, quantile, selection) with rounding errors.
  `±inf` appear only where the code uses them (`WithTop ℚ`, `WithBot ℚ`).
* An instance is sizes `n` (variables), `N` (scenarios), `m` (constraints per
  scenario) plus data functions `A s i j`, `b s i`, `c j`, `proba s`, `eps`, `cont`.
  Parsed instances have `proba s = 1/N` and data rounded to one decimal.
* `np.linalg.norm` is a parameter: any function that is non-negative and zero exactly on
  zero rows (an irrational square root is never needed).
* Python lists are Lean lists, dicts are insertion-ordered association lists,
  `frozenset` keys are `Finset`s, exceptions are values (`PyErr`), mutable objects
  are state records threaded through a state-and-exception monad.
  `while` loops take fuel; termination theorems say how much fuel suffices and
  non-termination theorems hold for every fuel.

## 3. Environment contracts (the part that is not modelled)

| Component | Modelled as |
|---|---|
| Gurobi | an arbitrary answer function, one answer per call, constrained only by a contract on the model AST it receives (below). Its tolerances are modelled in `Model/Tolerances.lean` and allowed in C94, C95, C97, C101, C103 to C107 only. Lazy attributes and warm starts are hints that do not change the model. A negative `TimeLimit` is refused with `GurobiError`; where a limit cuts off a call is part of the answer. |
| `random.sample`, `random.shuffle`, draws of the generator | any outcome, chosen afresh at every call |
| `np.argsort`, `std::sort` | any sorting permutation (every tie-breaking); `std::sort` only if its comparison is a strict weak order |
| `sorted` | a stable sort |
| `time.time()` | an arbitrary sequence of readings (monotone where stated) |
| SIGALRM / `KeyboardInterrupt` | may arrive at any moment; the model records every intermediate pair (vLB, vUB) in a ghost trace and proves the property for all of them |
| `csv.writer`, `csv.reader` | the state machine of CPython 3.11 on characters (`Model/CsvText.lean`); the other modules work on rows of cells, which C98 and C99 justify |
| text of floats (`str`) | any text without line ends that `float` reads as the same double |
| printing, file system | not modelled; layout of rows, formatting of output numbers and file names are |

Contracts on an answer to a model (`Model/Gurobi.lean`):

* `Valid`: a returned point is feasible, its value is the reported one, the reported bound holds for
  all feasible points, "infeasible" is said only of infeasible models, "optimal" only of optima.
  The call may be cut off at any time and return no point.
* `Answers`: valid, and a point is returned if the model is feasible and bounded.
* `Exact`: answers with an optimal point and a closed gap.
* `WithinGap`: closed up to the relative MIP gap set on the model.
* `NearValid`, `NearAnswers` (`Model/Tolerances.lean`): as `Valid` and `Answers`, but returned points need
  only satisfy rows up to `FeasibilityTol` and integrality up to `IntFeasTol`, with the values that the
  code sets (`FeasibilityTol` doubled, which C97 needs) or Gurobi's defaults.  Simplifications: bounds hold exactly for points that are feasible
  without tolerance; an absolute gap is not allowed; big-M problems keep their exact contract (except in C104 and C105).
* `FlValid` (`Model/FloatOptim.lean`): answers to problems with rounded coefficients; points within the
  tolerances that the code sets, bounds and infeasibility for all points that violate no rounded constraint by
  more than `2e-10` (`9e-10` in C101, C106 and C107, whose big-Ms have errors up to `7e-10`,
  `4e-10` in C105).
* `FlAnswers` (`Model/FloatMilp.lean`): `FlValid` for calls without time limit; feasible problems end with
  status 2 within the model's `MIPGap`, and the reported bound is a double.

Contracts on whole runs (`Contract.lean`):

* `Contract env I`: equiprobable scenarios, `epsilon >= 0` whose tolerance `1e-7` does not reach the
  next scenario, non-negative data, `Exact` subset costs, `Valid` answers to partitioned and
  lower-bound problems, `Answers` to split and big-M problems; subset solutions violate a scenario
  by more than `1e-6` or not at all (`Sharp`), which is a theorem for binary instances read from a
  file (`sharp_of_grid`).
* `Strong`: no call is cut off, infeasible models are reported, a monotone clock, a configuration
  that the components accept.  Needed for theorems about the absence of exceptions.
* `GapContract env I` (`Lemmas/GapRun.lean`): as `Contract`, but subset costs only within Gurobi's default
  gap (`GapAnswers`), as the code asks for them; nothing about big-M problems.
* `TolContract env I` (`Lemmas/GapRun.lean`): as `Contract` without the sharpness of the data with respect to
  the tolerance `1e-6`, so continuous variables are allowed.  `NearContract` is the common
  generalisation of it, `GapContract` and `NearTolContract` that the induction over the run uses; its
  parameters say which points count as good and which points may be returned for subsets.
* `NearTolContract env I` (`Lemmas/Tolerances.lean`): all points returned for subset, partitioned,
  lower-bound and split problems only within Gurobi's tolerances, subset costs only within the default
  gap; at most 90000 scenarios (with more, `IntFeasTol` lets the split problem leave a side empty), values
  and capacities that sum up to at most `1e12`.
* `Tight`: partitioned problems solved to a closed gap.  `NearTight`: solved within the relative gap
  1e-8 that the code sets.

None of these is vacuous: `Lemmas/ExactSolver.lean` defines a solver that meets `Exact` on every
model, and `Props/Certificates.lean` has whole runs under all of them.  The solvers that produce
counterexamples (`tableSolver`, `gapSolver`, `slackSolver`, `lateSolver`, ...) are shown to meet the
contract that the refuted claim assumes.

## 4. Layout

`Verif/Basic`, `Verif/Py` (Python primitives), `Verif/Data` (instances), `Verif/Spec`
(specification vocabulary, independent of the model),
`Verif/Model/*` (function-by-function model), `Verif/Lemmas/*` (helper lemmas),
`Verif/Props/*` (property theorems, each with a concrete instance of its
hypotheses).

Modelled, function by function: `src/instance/*`, `src/Initializer.py`, `src/Evaluator.py`,
`src/UpperBounder.py`, `src/LowerBounder.py`, `src/Merger.py`, `src/Warmstarter.py`, `src/refiner/*`,
`src/optim/*` (as construction of model ASTs), `src/BigMFinder.py`, `src/song_big_m.py`,
`violations.h`, `violations.pyx`, `src/solver/*`, `src/TimeManager.py`, `src/Informer.py`,
`src/export/format_results.py`, `export_results.py`, `main.py`,
`data/cc-instances/knapsack/instance-generator.py`, `generate-all-instances.sh`, `run_all_experiments.sh`, the
numbers in `data/orlib/*`.

Not modelled: printing; Gurobi parameters other than the MIP gap, the feasibility tolerances and the sign of the time limit; rounding errors of float arithmetic
(except in file names, in the decisions of `Model/Float.lean`, in the compiled violation routine,
`Model/FloatSort.lean` and `Model/FloatViolations.lean`, in the coefficients of the chance-constrained
problems, `Model/FloatOptim.lean`, in methods 1 and 2 and their result row, `Model/FloatRow.lean`, in the tables, `Model/FloatExport.lean`, `Model/FloatMilp.lean` and
`Model/FloatKnapsack.lean`, in the bounds of the adaptive method, `Model/FloatAdaptive.lean`, and in instance files,
`Model/FloatFiles.lean`); nan in the data; failing memory
allocation; the build scripts; the tests.

Simplifications stated at the definitions include: a cut whose right-hand side is `-inf` is left out;
the costs of deleted subsets are removed before the solutions rather than in turn; loops take fuel
(`rounds` for the refiner, `fuel` for the main loop), so that a run reads "up to the given number of
iterations", and theorems hold for all numbers; the total time of a run is a parameter of the row.

## 5. Properties: what is modelled and how it is proved

| Id | Model | Proof |
|---|---|---|
| C01, C02 | `_get_constraint_violation` .. `check_feasibility`, `get_feasible_scenarios` | unfold loops to list filters, case split on tolerance and norm |
| C03 | same + data on the 1/10 grid | the left side minus the right side is a multiple of 1/10, so >1e-6 iff >0 |
| C04, C05 | `_parse_*`, generator's row layout, `np.round(.,1)` (ties to even) | index arithmetic on appended lists; rounding lemmas via floor |
| C06–C08 | `Initializer` | strided slices partition a list (induction), sort is a permutation |
| C09–C12 | `PartitionChanceKnapInstance` | sums over parts, div/mod index arithmetic, injection from violated parts to violated scenarios |
| C13–C15 | `ahmed_et_al_bound`, `first_iteration_bound` | prefix of a sorted list has probability above epsilon, so one of its scenarios is satisfied |
| C16 | `fix_z_to_zero` on the model AST | a solution above vLB cannot satisfy a cheap subset |
| C17, C18, C19, C20 | `LowerBounder` with a persistent constraint list | loop invariants, history induction; C17 and C20 are false without a guard: counterexamples + guarded theorems |
| C21 | `_compute_gap` | false for non-positive vLB: counterexamples + theorem for vLB > 0 |
| C22–C27 | `Refiner`, `RandomRefiner`, `CostRefiner` | loop invariants (partition, number of violated parts grows by one per split), pigeonhole for termination |
| C28, C29 | `AccObjModel` AST and `get_subsets` | LP weak duality; filter partition |
| C30–C33 | `Merger` | induction over the candidate list; C32 and C33's second half are false: counterexamples + guarded theorems |
| C34–C36, C38 | `_split`, `_merge`, `_post_merge_processing`, `Warmstarter` | invariants of one iteration |
| C37 | full `solve` loop | invariant on shape, size and memory that needs no assumption about bounds or solver; exceptions of `_merge` carry their line |
| C39–C44, C47 | `BigMFinder`, `song_big_m.py`, `BigMKnapsackModel` | exchange argument for the greedy knapsack, quantile counting |
| C45, C46 | `violations.h`, `violations.pyx` | loop invariant of `update`, Lagrangian bound; C46 false for one constraint per scenario |
| C48, C49 | `CCLPModel` AST (indicator and big-M) | feasibility of the two ASTs compared; star-shapedness around 0 |
| C50–C56, C59, C66 | full `solve` loop | inductive invariant over iterations with ghost trace; variant for termination; C54, C55 and C59 false in general: concrete runs |
| C57, C58 | `MilpSolver` | composition; C58 refuted by a concrete solver answer |
| C60–C65 | row layouts, `Informer`, `main.py` dispatch, exporter | decision logic; C61, C62 false: the code raises |
| C67 | deterministic model AST | feasible set inclusion |
| C68 | `CostRefiner._perform_accurate_split` | concrete instance with negative capacities, every solver and tie-breaking |
| C69, C72 | parser or generator + full `solve` | composition of C04, C05, C50-C52 |
| C70, C71 | row of the extended formulation read by the exporter | the entries of the row are computed; both false as stated |
| C73 | log of iterations | invariant of the log relative to the ghost trace; frame argument for "two rows per iteration"; false in the sign |
| C74 | names of files | unique reading of digits and dashes |
| C78 | runs with subset costs within the default gap | `Lemmas/GapRun.lean`: invariant that every point feasible for the current partition, and every feasible point, is covered by `vUB` or `vLB` up to the gap; refuted for feasible stops by a concrete run |
| C79 | runs with violations within the tolerance, continuous variables | the same invariant with factor 1 (`NearContract 0`), points within the tolerance instead of feasible ones |
| C80 | what `solve` prints at its end (`announced`) | composition of C51 and C52; refuted for stops on the gap by a concrete run |
| C81 | full `solve` loop, arbitrary answers | invariant over iterations on the stored solutions, the iteration counter and the clock (`Props/StopReason.lean`) |
| C82 | two runs of the full `solve` loop | every method is shown to use only the parts of the environment its configuration uses (`Props/Reproducible.lean`) |
| C83 | two runs with different time limits | relational argument (`Lemmas/Twin.lean`): each method either does the same in both runs or the deadline of the first has passed; traces only grow |
| C84 | upper-bound solutions of the full `solve` loop | invariant: the current partition cuts off the last solution (without merging: all of them), refinement never reduces the number of violated parts (`Props/Progress.lean`); sharpness by a concrete cycling run |
| C85 | two runs of different methods | every finished run certifies its value up to its gap, and two certificates bound each other (`Props/Agree.lean`) |
| C86, C87 | `export_results.py` as a whole | the loops fill a flat table: invariants over the nested loops on which index has which row; slices into files; rows of the solvers read back (`Props/Tables.lean`) |
| C88 | `save_bounds` of `OptiModel.solve` inside `MilpSolver.solve` | invariant of the callback: the rows are the reports without repetitions (`List.destutter`); readings of the clock; equivalence of the formulation for the meaning of a row (`Props/History.lean`) |
| C89 | last three columns of a result row, read back | composition of C50, C51 (with and without the gap 1e-8 of the partitioned problems), C57 with the formatting and the reader (`Props/RowMeaning.lean`); refuted for method 2 with the default gap and for a stop with a feasible solution by concrete runs |
| C90 | the two shell scripts, main.py and the loading loop of the exporter as maps on folders; the eight OR-library files as constants (`Model/Workflow.lean`, `Model/OrLibFiles.lean`) | names are injective (parsed from the end), every write keeps the other files, then C72, C89 (`Props/Workflow.lean`) |
| C91 | doubles as exact values with relative error 2^-53 in any order of summation, or rounded to the nearest (`fl64`) (`Model/Float.lean`) | error bounds by induction on the summation tree; gaps between multiples of 1/N and percentages (`Props/Float.lean`) |
| C92 | the C++ routine with 32-bit `int`, arrays with a size, and `std::sort` that demands a strict weak order; everything undefined is an error (`Model/ViolationsMem.lean`) | refinement: simulation with the unbounded model of C45 and C46; for the converse, the last addresses of the loops (`Props/ViolationsMem.lean`) |
| C93 | the comparison with rounded products (`Model/FloatSort.lean`) | monotony and exactness of `fl64`; acyclicity through a potential (the exact ratio); order theorem for integers up to 2^26, agreement on non-ties for one decimal | partial: false for ties of one-decimal data (`C93_counterexample`) |
| C94 | runs and `MilpSolver.solve` with points feasible only within Gurobi's tolerances (`Model/Tolerances.lean`) | the invariant of C78 with near points as good points; on data of one decimal rounding a near point gives a feasible point |
| C95 | partitioned problems solved within the tolerances, then `check_feasibility` and the refiners | a scenario kept by an indicator is within `1e-9`, the counting row leaves at most `kmax` others | partial: false with big-Ms (`C95_counterexample`) |
| C96 | `update`, `compute`, `computeAllViolations` with every operation rounded, the quantile of Song's big-Ms (`Model/FloatViolations.lean`) | both runs of the loop in step: on the decimal grid each branch is the same as in exact arithmetic, so errors only add up; order statistics are 1-Lipschitz |
| C97 | `load_partition`, `_add_chance_constraint`, the big-M rows and `CCLPModel.build` on doubles, sums in any order (`Model/FloatOptim.lean`) | the two models have the same shape and constraints that differ by at most `2e-10` at every point of the doubled box; a feasible point of one is a nearly feasible point of the other, and C94, C95 hold with `FeasibilityTol` doubled | proved; `C97_strict` shows that the tolerance is needed |
| C98 | `read_data`, `parse_data` and the generator on doubles, with the text of the file (`Model/CsvText.lean`, `Model/FloatFiles.lean`) | `rint(fl(10 fl(x))) = rint(10 x)` for `x = k/10^4 <= 10^10`: away from ties by the error bound, at ties because the error of `fl(x)` is a multiple of four units and the product is rounded to the even multiple; then file, parser and generator commute with rounding | proved; `C98_more_decimals_counterexample` shows that the bound on the decimals is needed |
| C99 | `csv.writer` and `csv.reader` as the state machine of CPython (`Model/CsvText.lean`), `float` of a text (`Model/PyNumber.lean`), `read_table`, `read_single_experiment` | invariants of the reader inside fields and quotes, induction over fields and rows; the same for the first field that is refused | proved; a carriage return in a name is read as a line feed (`C99_carriage_return_counterexample`) |
| C100 | `int` and `float` of a text, the arguments, the folder, the instance file as text, the two result files (`Model/CommandLine.lean`) | the readers of numbers accept exactly an inductive grammar (`IntText`, `FloatText`), by induction over the text; frame argument over the calls; composition with C62, C99 | proved; a prefix without slash: `C100_no_slash` |
| C101 | `MilpSolver.solve` with Song's big-Ms on doubles (`Model/FloatMilp.lean`) | composition of C96 and C97: an error `e` in the big-Ms is absorbed by the tolerances as long as `e + 2e-10` is below `1e-9`; range of the violations from their characterisation as knapsack maxima | proved |
| C102 | values that are multiples of a unit, at most 10000 units in total | an answer within the gap `1e-4` is optimal because values differ by whole units; refinement: runs do not tell two solvers apart that give the same costs and solutions of subsets (`Lemmas/SubEnv.lean`), so all theorems about exact answers transfer | proved |
| C103 | text of an instance file to the result of method 1 on doubles | composition of C98 and C101; rounding to doubles is idempotent, so the program does not tell an instance from its doubles; non-negative data from non-negative files | proved |
| C104 | `MilpSolver.solve` with Belotti's big-Ms within Gurobi's tolerances | the big-M problems bound every row on the points up to the quantile, also when answered within tolerances; the extended formulation with big-Ms that need not be valid is sound, and its bound holds for the points that they do not cut off | partial: `vUB` bounds the feasible points up to the quantile; the full claim is false |
| C105 | method 2 of main.py in double precision (`Model/FloatMilp.lean`) | the quantile index in doubles is exact (C91); rounded rows keep every point of a scenario within `2e-10`; the big-Ms are doubles and relax the rows up to `2e-10` for the points up to the quantile; then as in C101 for these points; from the text of the file on with C98 (`Props/FloatPipeline2.lean`) | partial: as C104, up to the rounding of the objective; the full claim is false |
| C106 | continuous variables within Gurobi's tolerances and in double precision | a point within the tolerances is clipped to the box and scaled down by `1 + θ`: feasible if capacities are at least 1 and row sums at most `κ` times the capacity (`Lemmas/ContTol.lean`); rows left out for a negative big-M hold by scaling, also if the big-M is wrong by up to `1e-6` (`skipped_rows_err`); then as C94, C101 and C103 | proved: `xLB` within `(κ+2)e-6` (runs) and `(3κ+5)e-9` (extended formulation) of a feasible point |
| C107 | method 2 of main.py in double precision for continuous variables (`Model/FloatKnapsack.lean`, `Model/FloatMilp.lean`) | dual certificate of the greedy knapsack with rounded ratios, quotients and sums (`flGreedy_dual`); sums of whole weights are exact in doubles; then as C106 | proved for whole values and linear problems solved without a gap: `xLB` within `(3κ+5)e-9` of a feasible point |
| C108 | instance-generator.py on the text of the OR-library file (`Model/OrLibText.lean`) | the csv reader with delimiter space on words separated by single spaces, by induction on words and lines (`Lemmas/OrLibText.lean`); then C98 and C103 | proved; numpy's `astype` on texts is assumed to read like `int` and `float` |
| C109 | the gap and the result row of methods 1 and 2 in double precision (`Model/FloatRow.lean`) | relative errors of difference, quotient and percentage (`Lemmas/FloatRow.lean`), three decimals and the reading of the text (C99), then C103, C106, C107 and C108 | proved for a positive printed lower bound; false for a negative one (`C109_negative_counterexample`) |
| C110 | `format_method` and the tables of `export_results.py` in double precision (`Model/FloatExport.lean`) | error of a rounded sum by induction on the instances (`flSum_step`), then one rounded division; the required gap by monotonicity of rounding; choice of the best index as in C65; `C110_table` composes C109's rows, their texts and the summary | proved for at most 2^48 instances |
| C111 | methods 1 and 2 in double precision, from the text of the file to the row and the exporter's count | totality: the origin is a point of every problem with rounded coefficients, so Gurobi's answer has status 2; every lookup is in range; the printed gap by the error of two roundings and the grid of thousandths | proved; assumes answers within time (`FlAnswers`, `InTime`) |
| C112 | the assignments to `vUB`, `vLB` and `xLB` of the adaptive method on doubles, as a step relation that allows any partition, candidate and order (`Model/FloatAdaptive.lean`) | invariant over the steps (`reach_inv`): rounded rows as in C97, sums and verdict as in C91, thresholds by the rounding error of one sum; then C109 for the gap; from the text of a file by C98 (`C112_text`) | proved for indicator constraints; percentages that are rounded down are excluded (C91) |
| C113 | the same for continuous variables | the invariant of C112 is proved for any distance within which points of Gurobi with few violations are of feasible ones (`FlRun`); here this distance comes from clipping and scaling as in C106 | proved for indicator constraints |
| C77 | time limit given to Gurobi | the readings of the clock around the construction of a model; a predicate on exceptions that is closed under the methods of the solver |
| C75, C76 | `LowerBounder` inside the full `solve` loop | ghosts record the stored solutions and the selections; frames for the methods that leave the lower bounder alone; invariant on counter and log |

Properties that are false of the code are kept with their full statement, a proved
counterexample, and a guarded `_partial` theorem that says what does hold.

## 6. What is false of the code

Each item is a theorem (`*_counterexample`) about the model.

| Id | Finding |
|---|---|
| C17 | the tolerance `1e-7` of the selection drops one scenario too many when `N*(epsilon+1e-7)` reaches the next integer |
| C20 | an infeasible lower-bound model replaces `vLB = -inf` by `-1e6`, and the run then stops on a negative gap |
| C21 | `_compute_gap` certifies nothing for a negative `vLB` and raises for 0 |
| C32, C33 | chained pairs lose a scenario, costs are paired with the wrong candidates in `Merger` |
| C38 | the warm start uses a stale list of deleted subsets after an iteration without merging |
| C41 | the greedy knapsack packs zero-weight items of negative revenue |
| C46, C47 | the C++ matrix keeps a zero diagonal with one constraint per scenario, so Song's big-Ms differ from the Python ones |
| C50, C55 | continuous variables and the feasibility tolerance; `ZeroDivisionError` for a lower bound of 0 |
| C55 | with continuous variables and one-decimal data a lower bound accepted within the tolerance lies above the optimum, prunes more than `kmax` subsets, and the next model is infeasible: `AttributeError` (`Props/ContinuousCrash.lean`, run with the exact solver of `Lemmas/GridSolver.lean`) |
| C54, C84 | merging can cycle for ever without a time limit: rejected solutions come back in turn (`C84_merging_returns`) |
| C57, C58, C78 | quantile bounds and Belotti's big-Ms with the default MIP gap of the subset problems; the loss is not bounded by the gap (1 certified, optimum 10001), in `MilpSolver` and in the adaptive algorithm; harmless for values on a coarse grid (C102) |
| C104 | Belotti's big-Ms with the default `IntFeasTol` of the subset problems: 1 is certified as optimal, the optimum is 100, although the values are on a coarse grid |
| C105 | the same in double precision with all data and answers exact doubles: method 2 certifies 1, the optimum is 100 |
| C59 | a feasible stop may report a point other than the feasible one |
| C61 | `adaptive_details` raises `KeyError` for every accepted configuration; `write_all_computation_details` after `use_big_m=False` |
| C62 | `main.py` passes `use_balancing`, which `solve` does not accept: methods 3 and 4 always end in `TypeError` |
| C63 | exporter truncates `e*100`: 29, 57 and 58 percent are looked up under other names |
| C68 | `KeyError` in the cost refiner with negative capacities |
| C70 | Belotti's and Song's big-Ms have the same code in the row |
| C71 | gaps up to 1.05e-4 count as solved |
| C78 | with subset costs within the default gap a feasible stop can report an infeasible point: the new upper bound is up to 1e-4 above the stored one, is not stored, and `xLB` becomes the old `xUB` |
| C80 | after a stop on the gap the solution printed as optimal is `xUB`, which can violate the chance constraint; the feasible one is `xLB` |
| C77 | a model that is ready after the deadline gets a negative time limit: `GurobiError`; a limit reached before the first point: `AttributeError` |
| C73 | bounds in the iteration file have the opposite sign |
| C88 | times in the history of bounds leave out the time to build the model |
| C89 | after a stop with a feasible solution the row gives the bound of the last partitioned problem (relative gap 1e-8) as the lower bound: 2000000.02 for a problem with optimum 2000000 |
| C89 | main.py sets the alarm before it constructs the adaptive solver, and the `try` covers only `solve` (main.py:85-97): an alarm during the construction (initial partition, big-Ms of Ahmed's bound) ends the program without a row (read from the code; the model has no alarm there) |
| C90 | methods 3 and 4 leave no results, and rows of an earlier version in the folder are shown as theirs; OR-library files of equal sizes would overwrite each other's instances |
| C108 | a line break among the capacities of an OR-library file is not refused: the first part of them is used, and a single capacity is read as that of all constraints |
| C109 | a lower bound that is below 0 within the tolerances gives a huge negative gap, which the exporter counts as solved |
| C90 | the summary tables never hold a number for methods 3 and 4 |
| C91 | epsilon = 0.29 with 100 scenarios: the code computes 28.999999999999996, rejects an optimal point with 29 violated scenarios, and the first bound may lie below the optimal value; exactly ten percentages (29, 35, 41, 47, 57, 58, 69, 70, 82, 94) fail for some number of scenarios |
| C92 | 10000 scenarios of 30 constraints overflow the `int` offsets of violations.h (N·N·m > 2^31); negative coefficients give `std::sort` a comparison that is no strict weak order |
| C93 | rows 1.1, 5.5, 3.3 and 1.0, 5.0, 3.0 have equal ratios, but the rounded products order two of the pairs and not the third: no strict weak order, so `std::sort` is undefined by the standard |
| C95 | with naive big-Ms of 9000 and an answer moved by one part in 1e9, which Gurobi's tolerance 1e-9 allows, the upper-bound solution violates all three parts by 3e-6: `AssertionError` in `Refiner.split` (`C95_counterexample`, whole run) |
| C97 | with 500, 1000 or 3000 scenarios and `epsilon` 0.1 or 0.2, and with 5000 and 0.2, the rounded chance constraint of the extended formulation excludes the points that violate exactly `epsilon * N` scenarios; only Gurobi's tolerance lets them in (`C97_strict`) |
| C112 | `epsilon` 0.29 with 100 scenarios (C91): in the first iteration `vUB` becomes 0 in a run of the adaptive method, while the optimal value is 1 (`C112_counterexample`) |
| C100 | `main.py file 0 0.1 1 results` creates the folder `results` and writes `results<instance>-10-0-1.csv` next to it; an unknown method (5) fails with `NameError` only after the instance has been read; a second argument such as 2 means binary variables |
| C87 | a row of the result table without any result has the dash of the first method in bold |
