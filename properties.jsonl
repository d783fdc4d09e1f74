{"id": "C01", "title": "optimize() returns the best recorded point", "statement": "Whenever optimize() returns normally, the value it returns is a lower bound on the value of every point the object has ever recorded and not deliberately removed (whether evaluated, taken from user-provided points, or kept across restarts), and the point it returns is the recorded point that attained this value. The values are never altered on the way in: in the list of all calls made, the k-th call carries exactly what the user's function returns at that point, given the calls before.", "quantifier": "every black box (including nondeterministic ones), every settings object, every behaviour of the search steps, every sequence of iterations and restarts, every pause pattern", "why_tests_cant": "It is a claim about every history of iterations, restarts, discarded points and model failures; a test run exercises one history of one objective with one random seed.", "anchors": ["src/rbfopt/rbfopt_algorithm.py:RbfoptAlgorithm.optimize", "src/rbfopt/rbfopt_algorithm.py:add_node", "src/rbfopt/rbfopt_algorithm.py:add_noisy_node", "src/rbfopt/rbfopt_algorithm.py:restart"]}
{"id": "C02", "title": "The best value tracked for stopping is the best value recorded", "statement": "After the first initialization, at every moment between iterations: for black boxes without evaluate_noisy (one or several CPUs), and for the others as long as the run is in noisy mode, the best objective value the object tracks (the one shown in the summary line and used in the stopping test) equals the smallest recorded objective value and its recorded position points to such a record, and the tracked minimum and maximum of the current nodes are the true ones. In every run, also with workers, the tracked best value is at most every recorded value and the tracked minimum and maximum enclose the current values. In a two-phase run in accurate mode equality can fail: replacing a noisy node by an accurate one does not update the tracked values.", "quantifier": "every reachable state of the serial engine and, for every schedule, of the parallel engine; plus a concrete two-phase run showing the failure", "why_tests_cant": "It is a claim about every history of iterations, restarts, discarded points and model failures; a test run exercises one history of one objective with one random seed.", "anchors": ["src/rbfopt/rbfopt_algorithm.py:add_node", "src/rbfopt/rbfopt_algorithm.py:remove_node", "src/rbfopt/rbfopt_algorithm.py:restart", "src/rbfopt/rbfopt_algorithm.py:optimize_serial"]}
{"id": "C03", "title": "The four node tables and the record tables stay aligned", "statement": "At every moment the lists of coordinates, values, noisy flags and error intervals have equal length, both for the current nodes and for the list of all records, and the current nodes are exactly the records made since the last restart, in the same order, with the same values and flags and with coordinates related by the domain scaling. The error interval kept with a current node is the recorded one, except that in two-phase optimization after the switch to the accurate mode it may have been replaced by zero (see C55).", "quantifier": "every reachable state of the serial engine, single-phase or two-phase; in the parallel engine the same, where the second part excludes the time after a restart that was interrupted by an exception and not yet repeated (see C90)", "why_tests_cant": "It is a claim about every history of iterations, restarts, discarded points and model failures; a test run exercises one history of one objective with one random seed.", "anchors": ["src/rbfopt/rbfopt_algorithm.py:add_node", "src/rbfopt/rbfopt_algorithm.py:add_noisy_node", "src/rbfopt/rbfopt_algorithm.py:remove_node", "src/rbfopt/rbfopt_algorithm.py:restart"]}
{"id": "C04", "title": "Evaluation counters are exact", "statement": "The number of evaluations and the number of noisy evaluations returned by optimize() equal the number of times the black box's evaluate() and evaluate_noisy() were actually called by this object.", "quantifier": "every black box, every settings object, every history of the serial engine", "why_tests_cant": "It is a claim about every history of iterations, restarts, discarded points and model failures; a test run exercises one history of one objective with one random seed.", "anchors": ["src/rbfopt/rbfopt_algorithm.py:optimize_serial", "src/rbfopt/rbfopt_algorithm.py:restart", "src/rbfopt/rbfopt_algorithm.py:objfun", "src/rbfopt/rbfopt_algorithm.py:objfun_noisy"]}
{"id": "C05", "title": "Every accurate record has a genuine source", "statement": "Every record flagged accurate carries a value that evaluate() returned for exactly that point at some moment of the run, or the value the user supplied for that initial point; every record flagged noisy carries a value that evaluate_noisy() (or evaluate()) returned for that point.", "quantifier": "every reachable state of the serial engine", "why_tests_cant": "It is a claim about every history of iterations, restarts, discarded points and model failures; a test run exercises one history of one objective with one random seed.", "anchors": ["src/rbfopt/rbfopt_algorithm.py:optimize_serial", "src/rbfopt/rbfopt_algorithm.py:restart", "src/rbfopt/rbfopt_algorithm.py:remove_existing_nodes"]}
{"id": "C06", "title": "Error intervals and noise flags describe the record they are attached to", "statement": "A record flagged accurate never carries an error interval, and without evaluate_noisy no record is flagged noisy. Every recorded interval is empty or was returned by some call of evaluate_noisy made by this object (with workers: submitted by it). The converse expectations fail in two-phase runs: initial points evaluated with evaluate() because the noisy budget is exhausted are flagged noisy; a noisy record reused after a restart gets the error interval of the most recent other noisy evaluation of the call, or raises NameError if there was none.", "quantifier": "every reachable state of the serial and, for every schedule of its workers, of the parallel engine; plus concrete two-phase runs for the failures", "why_tests_cant": "It is a claim about every history of iterations, restarts, discarded points and model failures; a test run exercises one history of one objective with one random seed.", "anchors": ["src/rbfopt/rbfopt_algorithm.py:restart", "src/rbfopt/rbfopt_algorithm.py:optimize_serial"]}
{"id": "C07", "title": "evaluate_noisy() is called only if the black box declares it, and noisy mode is never re-entered", "statement": "If has_evaluate_noisy() is False, evaluate_noisy() is never called. In the serial engine, once the optimization has switched to accurate mode it stays there: no later noisy call is ever made. In the parallel engine the mode is never left either, and noisy evaluations submitted after the switch come only from searches started before it, at most one each (so at most as many as there are workers); this bound is attained.", "quantifier": "every black box, every history of the serial and of the parallel engine", "why_tests_cant": "It is a claim about every history of iterations, restarts, discarded points and model failures; a test run exercises one history of one objective with one random seed.", "anchors": ["src/rbfopt/rbfopt_algorithm.py:phase_update", "src/rbfopt/rbfopt_algorithm.py:optimize_serial", "src/rbfopt/rbfopt_algorithm.py:restart"]}
{"id": "C08", "title": "Iteration limit and pause length are respected", "statement": "optimize() with one CPU never performs more than max_iterations iterations in total, nor more than pause_after_iters iterations in one call, and the iteration counter never decreases.", "quantifier": "every black box, settings, oracle behaviour, pause pattern", "why_tests_cant": "It is a claim about every history of iterations, restarts, discarded points and model failures; a test run exercises one history of one objective with one random seed.", "anchors": ["src/rbfopt/rbfopt_algorithm.py:optimize_serial"]}
{"id": "C09", "title": "Overshoot of the evaluation limit is bounded", "statement": "When optimize() with one CPU returns, the number of accurate evaluations is at most max_evaluations - 1 plus the evaluations of a single last pass of the main loop (two restart samples, or one restart sample and one point; a sample counts the user-supplied points), unless the evaluations made before the call together with its own initialization already exceed this. An overshoot by the initial sample does occur.", "quantifier": "every history of the serial engine", "why_tests_cant": "It is a claim about every history of iterations, restarts, discarded points and model failures; a test run exercises one history of one objective with one random seed.", "anchors": ["src/rbfopt/rbfopt_algorithm.py:optimize_serial", "src/rbfopt/rbfopt_algorithm.py:restart"]}
{"id": "C10", "title": "The noisy evaluation budget", "statement": "The number of calls of evaluate_noisy() in a serial run never exceeds max(max_noisy_evaluations, 1) by more than the amount by which an initial sample can exceed n+1 points; in particular samples of at most n+1 points never make it exceed max(max_noisy_evaluations, 1). With workers this is not so: the limit is looked at only when a result is recorded, and during one call of optimize() the number can exceed this bound (or the number at the start of the call) by up to the number of jobs that can be outstanding together, max(num_cpus, sample size + 1), plus the number of results that were ignored during the call, but not by more.", "quantifier": "every two-phase run, serial or with any number of workers and any order of completion", "why_tests_cant": "It is a claim about every history of iterations, restarts, discarded points and model failures; a test run exercises one history of one objective with one random seed.", "anchors": ["src/rbfopt/rbfopt_algorithm.py:restart", "src/rbfopt/rbfopt_algorithm.py:phase_update"]}
{"id": "C11", "title": "optimize() terminates", "statement": "With finite max_iterations and max_cycles, the serial optimize() returns (or raises) after finitely many passes of its main loop whatever the search steps, linear algebra and black box do: no sequence of skipped steps, failed models, failed restorations or restarts can loop forever.", "quantifier": "every settings object accepted, every oracle behaviour", "why_tests_cant": "Non-termination needs an unbounded schedule of failures; no finite set of runs can exclude it.", "anchors": ["src/rbfopt/rbfopt_algorithm.py:optimize_serial", "src/rbfopt/rbfopt_algorithm.py:advance_step_counter", "src/rbfopt/rbfopt_algorithm.py:restoration_search"]}
{"id": "C12", "title": "optimize() returns only for a declared reason", "statement": "When optimize() returns, at least one of these held at the end of the main loop: pause length reached, max_iterations, max_evaluations, every point of a finite search space evaluated, max_cycles, max_clock_time, or the optimality gap is at most eps_opt. Without evaluate_noisy the gap is that of the value returned (with workers: of some record). With it, it is that of the best value the object tracks, which is the value returned (with workers: the value of some record) as long as the object is in noisy mode; in accurate mode it can be the value of a noisy record that was removed, so that the call stops although no record reaches the target. In parallel runs without evaluate_noisy a target value that was reached when the main loop is entered or by a collected evaluation ends the call.", "quantifier": "every history of the serial engine and every history and every schedule of the workers of the parallel engine, for black boxes whose intervals have non-negative upper ends; one concrete two-phase run for the failure", "why_tests_cant": "It is a claim about every history of iterations, restarts, discarded points and model failures; a test run exercises one history of one objective with one random seed.", "anchors": ["src/rbfopt/rbfopt_algorithm.py:optimize_serial"]}
{"id": "C13", "title": "Pausing and resuming does not change the run", "statement": "On an object that has been used in any way before, calling optimize(k) and then optimize(k') gives exactly the same outcome (result, counters, records, black box calls, random state, or exception) as one call optimize(k+k'), provided that the black box has no evaluate_noisy, there is no clock limit, the search does not depend on the elapsed time, the first call made at least one iteration and did not reach the target. It fails when the first call makes no iteration (the second call initializes again) and when the target is reached in a restart inside the call (the paused run stops, the uninterrupted one goes on). In a two-phase run the second call can raise NameError where the uninterrupted run goes on, because the error bounds of the last noisy evaluation are forgotten at the pause.", "quantifier": "every pause length, every black box and oracle behaviour", "why_tests_cant": "Equality of two whole executions for every split point.", "anchors": ["src/rbfopt/rbfopt_algorithm.py:optimize", "src/rbfopt/rbfopt_algorithm.py:optimize_serial", "src/rbfopt/rbfopt_algorithm.py:restart"]}
{"id": "C14", "title": "Saving and loading preserves the optimization", "statement": "load_from_file() of a file written by save_to_file() yields, in any process, an object whose continuation makes the same calls and records as the saved object would have made, including random choices; a successful save leaves the running object and all other files unchanged; the loaded object writes its log to stdout; and a run killed at any moment and continued from its last automatic checkpoint ends exactly like the uninterrupted run (single-phase, no clock limit, target not yet reached). (Violated if saving raises: the object loses its output stream and the next log line raises AttributeError.)", "quantifier": "every state of the object, every moment at which it is saved or killed, every loading process", "why_tests_cant": "Quantifies over all states and all continuations.", "anchors": ["src/rbfopt/rbfopt_algorithm.py:save_to_file", "src/rbfopt/rbfopt_algorithm.py:load_from_file"]}
{"id": "C15", "title": "A crash while saving does not destroy the previous checkpoint", "statement": "If the process dies at any moment during save_to_file(), every other file is intact and whatever can be loaded from the file afterwards is either exactly what was there before or exactly the state being saved; alternating between two file names always leaves a loadable state. But the previous checkpoint in the same file is lost: the file is truncated before it is rewritten and no partially written file can be loaded.", "quantifier": "every crash point during save_to_file()", "why_tests_cant": "Crash points cannot be enumerated by unit tests.", "anchors": ["src/rbfopt/rbfopt_algorithm.py:save_to_file"]}
{"id": "C16", "title": "New points keep the minimum distance from the current nodes", "statement": "Every point added by an iteration is farther than min_dist from every node present at that time, so any two current nodes that are not both initial points are farther than min_dist apart; in a parallel run the same holds while the main loop runs, and points are only submitted if they are also farther than min_dist from all points under evaluation. At the end of a parallel call nodes are added without this check and duplicates can occur.", "quantifier": "every reachable state of the serial engine, every schedule of the parallel engine", "why_tests_cant": "It is a claim about every history of iterations, restarts, discarded points and model failures; a test run exercises one history of one objective with one random seed.", "anchors": ["src/rbfopt/rbfopt_algorithm.py:optimize_serial"]}
{"id": "C17", "title": "The black box is only evaluated inside the declared box, at integral points for integer variables", "statement": "Every point passed to evaluate()/evaluate_noisy(), by the initial samples or by the iterations, lies within the variable bounds and is integral on integer variables, for every behaviour of the black box and of the random and numerical parts, provided the declared bounds of integer variables are integral and the search step proposes points of the right dimension that are integral and one-hot where required. It fails for fractional bounds on integer variables, which are rounded outwards. In particular, when the initial samples and the pure global, global, local, refinement and restoration steps are those of the code (genetic algorithm, sampling or a solver whose results are feasible up to integrality tolerance), with any settings, radial basis function and random numbers, every point evaluated over the whole life of the object is feasible for the user's problem; with several CPUs the same holds for every point submitted to a worker, whatever the interleaving of the workers, when the domain is not scaled.", "quantifier": "every sequence of calls, every behaviour of black box, random numbers and solver, every bounds vector, every domain scaling", "why_tests_cant": "Needs every proposal point and every bounds vector.", "anchors": ["src/rbfopt/rbfopt_algorithm.py:optimize_serial", "src/rbfopt/rbfopt_utils.py:transform_domain", "src/rbfopt/rbfopt_utils.py:round_integer_bounds", "src/rbfopt/rbfopt_utils.py:transform_domain_bounds"]}
{"id": "C18", "title": "A point evaluated before a restart is not evaluated again", "statement": "In accurate mode, if the point chosen by an iteration coincides (within eps_zero) with an accurate record made before the last restart, its value is reused and evaluate() is not called; if the nearest such record is not accurate, it is evaluated.", "quantifier": "every state and every proposed point", "why_tests_cant": "It is a claim about every history of iterations, restarts, discarded points and model failures; a test run exercises one history of one objective with one random seed.", "anchors": ["src/rbfopt/rbfopt_algorithm.py:optimize_serial", "src/rbfopt/rbfopt_algorithm.py:remove_existing_nodes"]}
{"id": "C19", "title": "The cyclic search strategy visits its steps in order", "statement": "With g global searches the step counter always stays in 0..g+3; normal progress goes InfStep, global 1..g, local search and back; after g+2 advances it returns to its value and exactly one cycle has been counted; the cycle counter never decreases. In parallel runs the position only changes by one step at a time (when a search is started, or when the step is switched off), at a restart (back to the first step, a new cycle, nothing outstanding), or to the restoration step; a search started is a refinement step exactly when none is in progress and one is due, otherwise the search of the current step; steps that are switched off are never started.", "quantifier": "every number of global searches, every state; every schedule of the workers", "why_tests_cant": "Quantifies over all settings and all histories.", "anchors": ["src/rbfopt/rbfopt_algorithm.py:advance_step_counter", "src/rbfopt/rbfopt_algorithm.py:optimize_serial"]}
{"id": "C20", "title": "The restoration phase never succeeds", "statement": "When the RBF matrix is singular the restoration phase should return a point farther than min_dist from all nodes that repairs the matrix if such a point is found. In fact, whatever the nodes, candidates and matrix routines, it never returns a point, even if every candidate is far from all nodes and makes the matrix invertible: the candidate is added to the node list before its distance from that list is measured.", "quantifier": "every node set, every candidate sequence, every matrix routine", "why_tests_cant": "That it never succeeds is a claim about all inputs.", "anchors": ["src/rbfopt/rbfopt_algorithm.py:restoration_search"]}
{"id": "C21", "title": "The refinement phase is limited", "statement": "Serial: unless unlimited refinement is active, at most max(1, max_consecutive_refinement) consecutive refinement points are evaluated before the search returns to its first step; each adds one node, and refinement only goes on while its radius is at least ref_min_radius. Parallel: within a call the number of evaluations submitted by refinement steps is at most 1 + (iterations of the call) / refinement_frequency (plus accurate repetitions of noisy evaluations).", "quantifier": "every history of the serial engine; every history and schedule of the parallel engine", "why_tests_cant": "It is a claim about every history of iterations, restarts, discarded points and model failures; a test run exercises one history of one objective with one random seed.", "anchors": ["src/rbfopt/rbfopt_algorithm.py:refinement_update", "src/rbfopt/rbfopt_algorithm.py:unlimited_refinement_active"]}
{"id": "C22", "title": "Refinement indices always denote existing nodes", "statement": "Between iterations of a serial run, and at any time in a parallel run of a black box without evaluate_noisy or while the object is in noisy mode, when a refinement phase is in progress (or, in parallel, a refinement search is outstanding) every index in its model set and its iterate index denote current nodes. In a two-phase parallel run in accurate mode this fails: a noisy node can be removed for re-evaluation while a refinement step is outstanding, the indices are not adjusted, and the run can end with an IndexError.", "quantifier": "every reachable state of a serial run, of a single-phase parallel run, and of a two-phase parallel run in noisy mode, in every scheduling of its workers; one concrete schedule for the two-phase failure", "why_tests_cant": "It is a claim about every history of iterations, restarts, discarded points and model failures; a test run exercises one history of one objective with one random seed.", "anchors": ["src/rbfopt/rbfopt_algorithm.py:refinement_update", "src/rbfopt/rbfopt_algorithm.py:optimize_serial", "src/rbfopt/rbfopt_refinement.py:init_refinement"]}
{"id": "C23", "title": "Stalling counter", "statement": "The stalling counter equals the number of iterations completed since the last one in which the best current value improved on the reference value by at least eps_impr relative, and restarts due to stalling happen only when at least max_stalled_iterations such iterations have passed and enough evaluation budget remains. In parallel runs only iterations completed by a collected evaluation or a reused value count, and a restart happens only with nothing outstanding, when the restart rule applies or the interpolation model cannot be built; it does happen then.", "quantifier": "every history of the serial engine; every history and schedule of the parallel engine", "why_tests_cant": "It is a claim about every history of iterations, restarts, discarded points and model failures; a test run exercises one history of one objective with one random seed.", "anchors": ["src/rbfopt/rbfopt_algorithm.py:stalling_update", "src/rbfopt/rbfopt_algorithm.py:optimize_serial", "src/rbfopt/rbfopt_algorithm.py:restart"]}
{"id": "C24", "title": "Promising noisy points are re-evaluated accurately", "statement": "In noisy mode, a point proposed by an iteration and recorded with a noisy value v and lower error el is not promising: v+el neither improves on the best current value by eps_impr nor reaches target + eps_opt*|target|; promising points are evaluated accurately in the same iteration. Hence, if |target_objval| is at least eps_zero, no run stops for optimality on the strength of a noisy value found in an iteration. It fails for points of initial samples, which are never re-evaluated, and for a target below eps_zero, where the gap uses another denominator.", "quantifier": "every value, error interval, target value and reachable state of both engines; plus concrete runs for the failures", "why_tests_cant": "Quantifies over all values and targets.", "anchors": ["src/rbfopt/rbfopt_algorithm.py:require_accurate_evaluation", "src/rbfopt/rbfopt_utils.py:compute_gap"]}
{"id": "C25", "title": "Reused points on restart form a partition", "statement": "On a restart, every point of the new initial sample is either kept for evaluation or replaced by exactly one earlier record within eps_zero of it, never both, and the number of reused points reported is exact; in accurate mode only accurate records are reused.", "quantifier": "every sample, every record list, every flag pattern", "why_tests_cant": "Quantifies over lists of any length.", "anchors": ["src/rbfopt/rbfopt_algorithm.py:remove_existing_nodes"]}
{"id": "C26", "title": "User-provided initial points", "statement": "User-provided points are kept in order with their own values; a kept point is farther than min_dist from every sampled point and every earlier user point; a dropped point is within min_dist of one of these; values stay attached to their points.", "quantifier": "every list of user points and values", "why_tests_cant": "Quantifies over lists of any length.", "anchors": ["src/rbfopt/rbfopt_algorithm.py:restart", "src/rbfopt/rbfopt_algorithm.py:RbfoptAlgorithm.__init__"]}
{"id": "C27", "title": "Categorical encoding is invertible", "statement": "Expanding points with categorical variables to the one-hot representation and compressing them back gives the original points, for any number and position of categorical variables; compressing then expanding gives back any one-hot point; bounds and integer-variable lists are compressed to the original ones.", "quantifier": "every problem shape, every list of points", "why_tests_cant": "All shapes and sizes.", "anchors": ["src/rbfopt/rbfopt_utils.py:expand_categorical_vars", "src/rbfopt/rbfopt_utils.py:compress_categorical_vars", "src/rbfopt/rbfopt_utils.py:compress_categorical_bounds", "src/rbfopt/rbfopt_utils.py:compress_categorical_integer_vars"]}
{"id": "C28", "title": "The black box sees the point in the user's own coordinates", "statement": "The vector passed to evaluate() is the user-space vector that corresponds to the internal point: categorical variables decoded to their category value, fixed variables inserted at their own positions with their fixed value, all other variables in their own positions; it always has the declared dimension.", "quantifier": "every problem shape, every internal one-hot point", "why_tests_cant": "All shapes and sizes.", "anchors": ["src/rbfopt/rbfopt_algorithm.py:objfun", "src/rbfopt/rbfopt_algorithm.py:objfun_noisy", "src/rbfopt/rbfopt_algorithm.py:RbfoptAlgorithm.__init__"]}
{"id": "C29", "title": "The returned point has the problem's dimension", "statement": "Without fixed variables the point returned by optimize() is the vector at which the black box was evaluated. With fixed variables the returned point lists the coordinates of that vector on the unfixed variables only, so it always has fewer entries than the problem's dimension.", "quantifier": "every problem shape", "why_tests_cant": "All shapes.", "anchors": ["src/rbfopt/rbfopt_algorithm.py:optimize"]}
{"id": "C30", "title": "The constructor reformulates the problem faithfully", "statement": "For every mix of real, integer, categorical and fixed variables, the internal problem has one variable per unfixed non-categorical variable plus one binary per category value, with corresponding bounds and integrality, so that internal points and user points correspond one to one.", "quantifier": "every vector of types and bounds", "why_tests_cant": "All shapes and sizes.", "anchors": ["src/rbfopt/rbfopt_algorithm.py:RbfoptAlgorithm.__init__"]}
{"id": "C31", "title": "A problem with all variables fixed is evaluated once", "statement": "If every variable is fixed and the domain scaling is given explicitly, optimize() on a new object evaluates the single feasible point exactly once and returns its value. With the default settings the constructor raises IndexError, and every further call of optimize() evaluates the point again.", "quantifier": "every such problem", "why_tests_cant": "All dimensions and types.", "anchors": ["src/rbfopt/rbfopt_algorithm.py:RbfoptAlgorithm.__init__", "src/rbfopt/rbfopt_algorithm.py:optimize", "src/rbfopt/rbfopt_settings.py:set_auto_parameters"]}
{"id": "C32", "title": "The finite search space stop counts points correctly", "statement": "For pure integer problems the run stops when the number of evaluations reaches the number of feasible points; for problems with categorical variables the limit is not smaller than the number of feasible points, so the run never stops before all points could have been evaluated.", "quantifier": "every integer/categorical shape", "why_tests_cant": "All shapes.", "anchors": ["src/rbfopt/rbfopt_algorithm.py:RbfoptAlgorithm.__init__", "src/rbfopt/rbfopt_algorithm.py:optimize_serial"]}
{"id": "C33", "title": "Rounding of integer bounds", "statement": "round_integer_bounds() returns bounds that are integral on integer variables and leaves others unchanged; for integral input bounds nothing changes. It enlarges fractional bounds (so integers outside the declared interval become feasible), contrary to shrinking them to the feasible integers.", "quantifier": "every bounds vector", "why_tests_cant": "All real bounds.", "anchors": ["src/rbfopt/rbfopt_utils.py:round_integer_bounds", "src/rbfopt/rbfopt_utils.py:round_integer_vars"]}
{"id": "C34", "title": "Domain scaling is invertible and maps the box to the internal box", "statement": "transform_domain() and its reverse are mutually inverse on the box, bulk and single versions agree, points in the box map into the internal box and back. (Fails for explicit affine scaling in presence of integer variables: the internal box is the unit box but points are not scaled.)", "quantifier": "every point and box", "why_tests_cant": "All points and boxes.", "anchors": ["src/rbfopt/rbfopt_utils.py:transform_domain", "src/rbfopt/rbfopt_utils.py:bulk_transform_domain", "src/rbfopt/rbfopt_utils.py:transform_domain_bounds"]}
{"id": "C35", "title": "Corner initial strategies", "statement": "The corner strategies return only corners of the box: all 2^n of them exactly once for all_corners (no equal bounds), the lower corner followed by its n neighbours for lower_corners, n+1 different corners for random_corners, which ends as soon as n+1 different corners have been drawn. With a categorical variable of three values corners can be points that encode no category, and the black box is evaluated at a category value outside its declared range.", "quantifier": "every dimension and box", "why_tests_cant": "All dimensions.", "anchors": ["src/rbfopt/rbfopt_utils.py:get_all_corners", "src/rbfopt/rbfopt_utils.py:get_lower_corners", "src/rbfopt/rbfopt_utils.py:get_random_corners"]}
{"id": "C36", "title": "Latin hypercube property", "statement": "For any random permutation choices, the uniform LHS design has exactly one sample in each of the equal-width strata along each coordinate; the maximin criterion picks the first design of largest minimum distance; the resulting sample points are feasible (in the bounds, integral on integer variables, one category per categorical variable). The correlation criterion picks the first design for which the absolute value of the largest pairwise correlation is smallest, so it can pick the design with the larger absolute correlation.", "quantifier": "every dimension, number of samples, permutation", "why_tests_cant": "All permutations and sizes.", "anchors": ["src/rbfopt/rbfopt_utils.py:get_uniform_lhs", "src/rbfopt/rbfopt_utils.py:get_lhd_maximin_points", "src/rbfopt/rbfopt_utils.py:get_lhd_corr_points"]}
{"id": "C37", "title": "Initial sampling succeeds when some sample is good", "statement": "initialize_nodes() returns the first affinely rich sample among the attempts before the last of the max_random_init allowed ones, and raises RuntimeError exactly if none of those is good. In particular success on the last attempt is reported as failure, so that max_random_init=1 always fails.", "quantifier": "every sequence of random samples and rank outcomes", "why_tests_cant": "All random sequences.", "anchors": ["src/rbfopt/rbfopt_utils.py:initialize_nodes"]}
{"id": "C38", "title": "Number of initial samples", "statement": "The number of initial samples is at least 2, at least the configured fraction of n+1 (times the parallel increase) rounded, within one half of it otherwise, and grows monotonically with the number of variables; the number of results a parallel run waits for is at most the number requested and, for Latin hypercube strategies in at least two dimensions, at most the number of points submitted. In one dimension, or with lower_corners and a fraction of 2, fewer points are submitted than waited for.", "quantifier": "every dimension and fraction", "why_tests_cant": "All dimensions and fractions.", "anchors": ["src/rbfopt/rbfopt_utils.py:get_num_init_samples", "src/rbfopt/rbfopt_utils.py:get_min_num_init_samples_parallel", "src/rbfopt/rbfopt_utils.py:get_lhd_maximin_points"]}
{"id": "C39", "title": "Cleanup of initial points", "statement": "init_points_cleanup() keeps a point exactly if no earlier point of the list is within min_dist of it; so it keeps the first point, keeps points in order, and all kept points are pairwise farther than min_dist apart. A dropped point need not be close to a kept one.", "quantifier": "every list of points, every metric", "why_tests_cant": "All lists.", "anchors": ["src/rbfopt/rbfopt_utils.py:init_points_cleanup"]}
{"id": "C40", "title": "Optimality gap", "statement": "The optimality gap of a value is at most e exactly when the value is at most target + e*|target| (target + e when |target| < eps_zero), for every e; it is strictly increasing in the value, 0 at the target, negative exactly below the target, and infinite only for an infinite value.", "quantifier": "every value and target", "why_tests_cant": "All values.", "anchors": ["src/rbfopt/rbfopt_utils.py:compute_gap"]}
{"id": "C41", "title": "Function value scaling preserves order", "statement": "transform_function_values() preserves the order of the values for affine, log and no scaling: strictly without clipping, weakly with clipping; it maps the minimum to the scaled minimum and applies the same increasing transformation to later values not below the minimum; affine scaling maps to [0,1]. It fails in four cases, each shown by an example: log rescaling below the current minimum is not monotone, error intervals can become undefined with log scaling and median clipping, clip_at_dyn with a threshold below one clips below the minimum, and a clipped value is rescaled to something else than its scaled value.", "quantifier": "every list of values, every scaling, clipping", "why_tests_cant": "All value lists.", "anchors": ["src/rbfopt/rbfopt_utils.py:transform_function_values"]}
{"id": "C42", "title": "Target values for global search", "statement": "In every global step the target value is at most the model minimum the step starts from, up to eps_zero, and never decreases from one step to the next for the same data; the distance weight lies in (0,1) and, with at most 20 global searches, never increases; the box handed to the search is inside the problem's box and contains the model minimum; and with at least as many nodes as initial points no step raises. With fewer nodes every global step after the first raises IndexError, and with more than 20 global searches the weight increases in the last step.", "quantifier": "every step, number of searches, number of nodes", "why_tests_cant": "All parameters.", "anchors": ["src/rbfopt/rbfopt_utils.py:get_sigma_n", "src/rbfopt/rbfopt_utils.py:get_fmax_current_iter", "src/rbfopt/rbfopt_algorithm.py:global_step"]}
{"id": "C43", "title": "RBF interpolants interpolate", "statement": "If the linear system is solved, the RBF built from it takes the given value at each node (exactly for the exact solution; with error at most eps_zero times the coefficient sum after small coefficients are zeroed), for every RBF type and with the categorical column elimination.", "quantifier": "every node set, values, RBF type", "why_tests_cant": "All inputs.", "anchors": ["src/rbfopt/rbfopt_utils.py:get_rbf_matrix", "src/rbfopt/rbfopt_utils.py:get_rbf_coefficients", "src/rbfopt/rbfopt_utils.py:evaluate_rbf"]}
{"id": "C44", "title": "Bulk evaluation equals single evaluation", "statement": "bulk_evaluate_rbf() returns at each position the value evaluate_rbf() returns for that point, for every RBF degree; with distances requested it also returns the true node distances.", "quantifier": "every list of points", "why_tests_cant": "All inputs.", "anchors": ["src/rbfopt/rbfopt_utils.py:evaluate_rbf", "src/rbfopt/rbfopt_utils.py:bulk_evaluate_rbf"]}
{"id": "C45", "title": "The RBF matrix is symmetric with the documented block structure", "statement": "get_rbf_matrix() returns a symmetric square matrix of size k + P-size with zero lower-right block, for every RBF and degree.", "quantifier": "every node set", "why_tests_cant": "All inputs.", "anchors": ["src/rbfopt/rbfopt_utils.py:get_rbf_matrix", "src/rbfopt/rbfopt_utils.py:get_size_P_matrix", "src/rbfopt/rbfopt_utils.py:get_degree_polynomial"]}
{"id": "C46", "title": "Leave-one-out model selection", "statement": "If the cross-validation error of every supported RBF model can be computed, get_best_rbf_model() returns the first model of smallest error and leaves the settings unchanged; the leave-one-out shortcut is exact: each prediction is the value at the left-out node of an RBF interpolating the others. If some error cannot be computed, the best model tried before is returned (the configured one if the failure is among the first two), and the settings object is left at the failed model, so that the next selection can answer differently. With tied node values a perfect model gets a positive error.", "quantifier": "every error outcome of the candidates", "why_tests_cant": "All outcome sequences.", "anchors": ["src/rbfopt/rbfopt_utils.py:get_best_rbf_model", "src/rbfopt/rbfopt_utils.py:get_model_quality_estimate", "src/rbfopt/rbfopt_utils.py:get_most_common_element"]}
{"id": "C47", "title": "Most common element", "statement": "get_most_common_element() returns an element not excluded, occurring in the array at least as often as any other non-excluded element, and None exactly if there is none.", "quantifier": "every array and exclusion list", "why_tests_cant": "All arrays.", "anchors": ["src/rbfopt/rbfopt_utils.py:get_most_common_element"]}
{"id": "C48", "title": "Genetic search stays feasible and never loses its best point", "statement": "On a problem with at least one variable the genetic search never fails; every individual of every generation lies in the box, is integral on integer variables, keeps one-hot groups, and the population size never changes; for an objective evaluated point by point, the point returned is at least as good as every individual of every generation. The population is ga_base_population_size + 4n (not + n/5 as documented), and a mutation changes at most one coordinate below 30 variables and none with a single variable.", "quantifier": "every random choice, number of generations", "why_tests_cant": "All random choices.", "anchors": ["src/rbfopt/rbfopt_aux_problems.py:ga_optimize", "src/rbfopt/rbfopt_aux_problems.py:ga_mate", "src/rbfopt/rbfopt_aux_problems.py:ga_mutate", "src/rbfopt/rbfopt_aux_problems.py:generate_sample_points"]}
{"id": "C49", "title": "MSRSM score", "statement": "The MSRSM objective gives +inf exactly to points within min_dist of a node, otherwise a score in [0, dist_weight + obj_weight]; of two points the one that is farther from the nodes and has smaller model value has the smaller score. The maximin objective is minus the distance to the nearest node, so that minimising it maximises that distance. Search by sampling returns a feasible sample of minimal score. (The score is not within [0,1] under the default modified_msrsm_score; if all points are too close all scores are +inf.)", "quantifier": "every population of points", "why_tests_cant": "All populations.", "anchors": ["src/rbfopt/rbfopt_aux_problems.py:MetricSRSMObj.evaluate"]}
{"id": "C50", "title": "Refinement candidate stays in the trust region and box", "statement": "The refinement candidate lies in the box and within the refinement radius of the starting point, the reported model improvement is the decrease of the linear model and is nonnegative, and the reported gradient norm is the norm of its gradient.", "quantifier": "every gradient, start point, radius, box", "why_tests_cant": "All real inputs.", "anchors": ["src/rbfopt/rbfopt_refinement.py:get_candidate_point"]}
{"id": "C51", "title": "Integer rounding of the refinement candidate", "statement": "The rounded refinement candidate is feasible: each integer variable is rounded down or up, other variables are kept, one category per group; the reported adjustment is the model difference; no rounding that was examined within the radius has a smaller model value. Without categorical variables the result is within the radius and not uphill of the starting point. (With categorical variables the last part is violated.)", "quantifier": "every gradient, candidate, random choice", "why_tests_cant": "All inputs.", "anchors": ["src/rbfopt/rbfopt_refinement.py:get_integer_candidate", "src/rbfopt/rbfopt_refinement.py:round_categorical"]}
{"id": "C52", "title": "Rounding categorical groups", "statement": "round_categorical() returns points with exactly one 1 in each group, at a position whose entry had a positive share of the group unless the group sums to zero, leaves all other coordinates and one-hot groups unchanged, and succeeds on every point without negative entries.", "quantifier": "every point and group structure", "why_tests_cant": "All inputs.", "anchors": ["src/rbfopt/rbfopt_refinement.py:round_categorical"]}
{"id": "C53", "title": "Model improving point", "statement": "When the refinement model is rank deficient the model-improving point is feasible and increases the rank, and the reported index designates the model-set element it is meant to replace. (The last part is violated: the index is relative to the set without the start point, so that right after the start of a refinement phase it is always wrong, and index 0 makes any new point the centre.)", "quantifier": "every model set and direction", "why_tests_cant": "All inputs.", "anchors": ["src/rbfopt/rbfopt_refinement.py:get_model_improving_point", "src/rbfopt/rbfopt_algorithm.py:refinement_step"]}
{"id": "C54", "title": "Refinement radius update", "statement": "The refinement radius is halved, doubled or kept according to the ratio of real to predicted decrease, stays positive, the step is accepted exactly when the ratio reaches the threshold, accepted steps improve the objective when the model predicts no increase, and enough unsuccessful steps end the phase. The update completes whenever the indices of the phase are valid; the phase ends exactly when the radius is below the minimum radius or (serial) the limit on consecutive refinement steps is reached; the nodes are unchanged, and a swap puts the last node in the place of one member of the set. (If the predicted decrease is negative, a step that makes the objective worse is accepted.)", "quantifier": "every pair of decreases, thresholds; serial and parallel updates", "why_tests_cant": "All real inputs.", "anchors": ["src/rbfopt/rbfopt_refinement.py:update_refinement_radius"]}
{"id": "C55", "title": "Minimum bump computation leaves its inputs unchanged", "statement": "get_min_bump_node() leaves the node values unchanged and selects an eligible noisy node whenever there is one, of minimal computed bumpiness. It erases the error intervals of all eligible nodes (and no others), so later bumpiness values are computed with a damaged table and the wrong node can be selected; it can select a node although the target is above its interval; and with function_scaling='off' the erased array is the one of the current nodes of the object itself, while any other scaling leaves it alone. During a run this happens only in local searches of two-phase optimization in accurate mode, never to the list of all records (from which the gap and the result are computed), and until the next restart the model treats the noisy value of such a node as exact.", "quantifier": "every node value and interval table; every reachable state of the serial engine", "why_tests_cant": "All inputs.", "anchors": ["src/rbfopt/rbfopt_aux_problems.py:get_min_bump_node"]}
{"id": "C56", "title": "Auxiliary mathematical models agree with the numerical code", "statement": "The optimization models built for the auxiliary problems have the RBF interpolant as objective (exactly for a zero distance shift, otherwise up to an explicit bound), their categorical constraints admit exactly the one-hot points, the quadratic forms written with the doubled upper triangle equal the full quadratic form, their feasible sets are the box with integrality and one-hot groups, and their objectives rank points like the corresponding numerical objectives. Two exceptions: the degree 1 model for h_k has no categorical constraints, and the minimum-distance variable of the squared-distance models is bounded by min_dist instead of its square. With the shifts actually used the objective differs from the interpolant by at most one millionth of the sum of the absolute coefficients for the linear basis function (attained at a node), half of 1e-14 times it for thin plate splines, 1.5e-14 times the sum weighted with one plus the distance for cubics, and not at all for the others.", "quantifier": "every point and coefficient vector", "why_tests_cant": "All inputs.", "anchors": ["src/rbfopt/rbfopt_degree1_models.py:create_min_rbf_model", "src/rbfopt/rbfopt_degree1_models.py:create_max_h_k_model", "src/rbfopt/rbfopt_degree1_models.py:create_maximin_dist_model", "src/rbfopt/rbfopt_degree1_models.py:create_min_msrsm_model", "src/rbfopt/rbfopt_degree1_models.py:add_categorical_constraints", "src/rbfopt/rbfopt_degree1_models.py:_max_one_over_mu_obj_expression_cubic"]}
{"id": "C57", "title": "Settings validation", "statement": "Constructing settings from a dictionary succeeds exactly when all keys are documented parameters and all values are in their documented ranges, and stores the given values and the defaults for the rest; otherwise ValueError or TypeError is raised. Accepted settings can still make optimize() crash: save_state_interval=0 raises in every completed iteration.", "quantifier": "every assignment of parameters", "why_tests_cant": "All parameter vectors.", "anchors": ["src/rbfopt/rbfopt_settings.py:RbfoptSettings.__init__", "src/rbfopt/rbfopt_settings.py:from_dictionary"]}
{"id": "C58", "title": "Automatic parameters are resolved", "statement": "set_auto_parameters() returns settings without automatic values, gives the automatic parameters their documented values (which depend on the number of processors, the number of variables and the variable ranges), keeps explicit choices, leaves the user's settings object unchanged and is idempotent.", "quantifier": "every settings object and problem", "why_tests_cant": "All parameter vectors.", "anchors": ["src/rbfopt/rbfopt_settings.py:set_auto_parameters"]}
{"id": "C59", "title": "Waiting for parallel results", "statement": "results_ready() is true exactly if some result is ready and get_one_ready_index() then returns the index of a ready one, otherwise the length of the list.", "quantifier": "every list of pending results", "why_tests_cant": "All schedules.", "anchors": ["src/rbfopt/rbfopt_utils.py:results_ready", "src/rbfopt/rbfopt_utils.py:get_one_ready_index"]}
{"id": "C60", "title": "The parallel engine keeps temporary nodes matched with outstanding evaluations", "statement": "Whatever the order in which workers finish, every temporary node corresponds to exactly one outstanding evaluation in the same order, each finished evaluation is recorded exactly once with its own value, and the temporary nodes never enter the records; without evaluate_noisy a recorded value is never lost again.", "quantifier": "every interleaving of submissions and completions", "why_tests_cant": "Schedules of concurrent workers cannot be enumerated.", "anchors": ["src/rbfopt/rbfopt_algorithm.py:optimize_parallel"]}
{"id": "C61", "title": "Number of outstanding parallel tasks", "statement": "The number of tasks (evaluations and searches) outstanding in a parallel run never exceeds the larger of num_cpus and one more than the number of initial evaluations the last restart left running, for every schedule; it can exceed num_cpus.", "quantifier": "every interleaving", "why_tests_cant": "Schedules cannot be enumerated.", "anchors": ["src/rbfopt/rbfopt_algorithm.py:optimize_parallel", "src/rbfopt/rbfopt_algorithm.py:restart"]}
{"id": "C62", "title": "Parallel initialization does not block forever", "statement": "If all submitted initial evaluations finish and at least as many were submitted as are required, the waiting loop of a parallel (re)initialization ends with enough results; this is so for Latin hypercube strategies in dimension at least two. If fewer are submitted than required, the loop never ends: e.g. in dimension one with init_sample_fraction 4.", "quantifier": "every schedule, dimension, strategy", "why_tests_cant": "Liveness over all schedules.", "anchors": ["src/rbfopt/rbfopt_algorithm.py:restart", "src/rbfopt/rbfopt_utils.py:get_min_num_init_samples_parallel"]}
{"id": "C63", "title": "Parallel shutdown records all outstanding evaluations", "statement": "When a parallel call returns, nothing is outstanding: every evaluation that was outstanding when its main loop ended was accurate and is recorded exactly once, in order, at its own point with its own value, and for black boxes without evaluate_noisy the call does return. If a noisy evaluation is outstanding when the main loop ends, the call never returns normally: the noisy result is not unpacked and the run ends with an exception.", "quantifier": "every set of outstanding evaluations", "why_tests_cant": "All schedules.", "anchors": ["src/rbfopt/rbfopt_algorithm.py:optimize_parallel"]}
{"id": "C64", "title": "The log marks improvements correctly", "statement": "The gap marked with a star in the log strictly decreases from one mark to the next, and each starred line shows the current best value.", "quantifier": "every sequence of log lines; every history of both engines", "why_tests_cant": "All histories.", "anchors": ["src/rbfopt/rbfopt_algorithm.py:update_log"]}
{"id": "C65", "title": "Objective values that are NaN do not corrupt the result", "statement": "As soon as evaluate() has returned NaN once, optimize() returns the first NaN record, losing all numbers. The best value tracked for the summary line and the gap is the least number recorded as long as no initial or restart sample contains a NaN; a sample with a NaN hides its other values and makes the current minimum and maximum NaN until the next restart. Without NaN the returned record is a least one and equals the tracked best.", "quantifier": "every history of evaluated points and restart samples with values that are numbers or NaN", "why_tests_cant": "All value sequences.", "anchors": ["src/rbfopt/rbfopt_algorithm.py:optimize", "src/rbfopt/rbfopt_algorithm.py:add_node"]}
{"id": "C66", "title": "Command line points file", "statement": "With a points file of dimension+1 columns the last column is taken as values of the points, with dimension columns no values are used, other widths, non-numbers and blank lines are rejected. With fixed variables the constructor wants points of the unfixed dimension, so values cannot be given. With --load, neither the settings on the command line nor the points file have any effect; --dump saves the object that optimize left.", "quantifier": "every table of points", "why_tests_cant": "All tables.", "anchors": ["src/rbfopt/rbfopt_cl_interface.py:rbfopt_cl_interface", "src/rbfopt/rbfopt_algorithm.py:RbfoptAlgorithm.__init__"]}
{"id": "C67", "title": "A refinement phase starts from the nodes closest to its centre", "statement": "At the start of a refinement phase the linear model is built from min(n+1, k) different nodes, none of the other nodes is closer to the best point, the best point itself is the first of them, and the radius is at least the minimum radius and otherwise at most the distance of the farthest of them.", "quantifier": "every set of nodes, every order in which equal distances are sorted", "why_tests_cant": "Ties in argsort are resolved arbitrarily; all node sets and dimensions must be covered.", "anchors": ["src/rbfopt/rbfopt_refinement.py:init_refinement"]}
{"id": "C68", "title": "Gutmann's objectives measure bumpiness", "statement": "The h_k objective of a point is minus the inverse of the bumpiness of the interpolant that is 1 at the point and 0 at the nodes, divided by the squared distance of the model value from the target (at least eps_zero); it is 0 at the nodes. The mu_k objective ranks points by the same bumpiness. (Violated: its value is off by the constant 2*phi(0) for multiquadric and gaussian, because the shift is added instead of subtracted.)", "quantifier": "every RBF type, node set, point and categorical group structure", "why_tests_cant": "All node sets and points.", "anchors": ["src/rbfopt/rbfopt_aux_problems.py:GutmannHkObj.evaluate", "src/rbfopt/rbfopt_aux_problems.py:GutmannMukObj.evaluate"]}
{"id": "C69", "title": "Choice of the node to re-evaluate in an accurate local search", "statement": "After a two-phase run has switched to accurate evaluations, a local search re-evaluates a known node only if some noisy node is eligible and a point was proposed; the node is a closest one to the proposed point; if it is within min_dist it is noisy, otherwise the bumpiness of the new point exceeds that of the best eligible node. It need not be the node selected by the bumpiness criterion and may already be accurate: the selected index is overwritten.", "quantifier": "every set of distances, flags, bumpiness values and node table", "why_tests_cant": "All tables of nodes, flags and distances.", "anchors": ["src/rbfopt/rbfopt_algorithm.py:local_step", "src/rbfopt/rbfopt_aux_problems.py:get_min_bump_node"]}
{"id": "C70", "title": "Results are recorded at the point that was evaluated (parallel)", "statement": "When the main loop of a parallel run records the result of an evaluation, the record is at the point at which the black box was evaluated and has the value returned for it, except that an initial evaluation collected after the initialization is recorded at the inverse domain scaling of its point, which may lie outside of the bounds and may be what optimize() returns. Without domain scaling every result is recorded at its point.", "quantifier": "every schedule of the workers, every domain scaling", "why_tests_cant": "It depends on which initial evaluations are slow; with fast black boxes or without scaling nothing goes wrong.", "anchors": ["src/rbfopt/rbfopt_algorithm.py:optimize_parallel", "src/rbfopt/rbfopt_algorithm.py:restart"]}
{"id": "C71", "title": "One refinement step at a time (parallel)", "statement": "At most one refinement step is in progress at any time in a parallel run. If the point of a refinement step is too close to a node when its evaluation is collected, or its value is copied from an old record, no refinement step is started for the rest of the call.", "quantifier": "every schedule", "why_tests_cant": "Needs particular interleavings.", "anchors": ["src/rbfopt/rbfopt_algorithm.py:optimize_parallel", "src/rbfopt/rbfopt_algorithm.py:refinement_update_parallel"]}
{"id": "C72", "title": "Interpolation failures do not end a parallel run", "statement": "With automatic model selection, a parallel run whose interpolation model cannot be built tries the underdetermined system, waits for outstanding work, or restarts, and never raises. With a fixed RBF type it ends with IndexError (from an empty list) unless the underdetermined system is a remedy.", "quantifier": "every failure pattern and schedule", "why_tests_cant": "Failures of the linear algebra cannot be forced at every point of a run.", "anchors": ["src/rbfopt/rbfopt_algorithm.py:optimize_parallel"]}
{"id": "C73", "title": "Limits in a parallel run", "statement": "A parallel call exceeds the iteration limit (and the limit of pause_after_iters) by less than twice the larger of num_cpus and N+1, where N is the largest number of initial points generated, and the evaluation limit by this and the samples of two restarts; no new work is started once a limit is seen to be reached.", "quantifier": "every schedule and history of calls", "why_tests_cant": "The overshoot depends on the interleaving.", "anchors": ["src/rbfopt/rbfopt_algorithm.py:optimize_parallel"]}
{"id": "C74", "title": "Progress of a parallel run", "statement": "If the initialization generates enough points, a parallel run is never stuck, and it can only run forever if from some time on evaluations or searches are outstanding and none of them ever finishes. With accurate evaluations only, and with noisy ones as long as the object is in noisy mode, records are never changed or removed.", "quantifier": "every infinite schedule", "why_tests_cant": "Liveness cannot be tested.", "anchors": ["src/rbfopt/rbfopt_algorithm.py:optimize_parallel"]}
{"id": "C75", "title": "Results of searches in a parallel call: discarded, reused or evaluated", "statement": "In a parallel run without evaluate_noisy(), the result of a search is discarded (nothing recorded or submitted) if it has no point or its point is within min_dist of a node or of an outstanding evaluation; otherwise, if a record made before the last restart is within eps_zero, the value of the closest such record is recorded at the new point without a new evaluation; otherwise exactly this point is submitted for evaluation. Exception: if the call has not collected any evaluation yet, e.g. just after resuming, reusing a value ends the run with NameError.", "quantifier": "every reachable state of a call, every result of a search", "why_tests_cant": "It takes a pause, a restart and a proposal of an old point.", "anchors": ["src/rbfopt/rbfopt_algorithm.py:optimize_parallel"]}
{"id": "C76", "title": "Command line interface and the output streams", "statement": "A successful call of the command line interface without a log file closes standard output, so that every later such call in the same process fails before the optimization starts; a log file that cannot be opened ends in a NameError. With a log file standard output stays as it was, whatever happens.", "quantifier": "every set of arguments and outcome of the steps", "why_tests_cant": "All arguments and outcomes of loading, construction and optimization.", "anchors": ["src/rbfopt/rbfopt_cl_interface.py:rbfopt_cl_interface"]}
{"id": "C77", "title": "No point is evaluated twice", "statement": "If the black box has no evaluate_noisy(), evaluate() is never called twice at the same point over the life of the algorithm object (any number of optimize() calls, restarts and search steps), provided the initial points given by the user come with their values and the sample of each (re)start has no repeated points; hence on a problem with only integer and categorical variables the number of evaluations is at most the number of feasible points. If values are not given, only the user's own initial points can be evaluated again. Samples computed by initialize_nodes() have no repeated points with the corner strategies, and with the Latin hypercube strategies if there is a single variable or some real variable that is not fixed; on pure integer problems a Latin hypercube sample can contain the same point twice, and it is evaluated twice. In the parallel engine, without domain scaling and with samples spread wider than min_dist and farther than that from the user's points, two evaluations are submitted at the same point only if the earlier one was lost because the process was killed while it was running, or because an exception of a worker ended the call; hence all evaluated points differ in runs without crashes and exceptions, and on integer and categorical problems the number of evaluations is at most the number of feasible points plus the number of lost evaluations. If a point given by the user is within min_dist of a sample point, the result at the sample point can be dropped and the point evaluated again after a restart.", "quantifier": "every problem (real, integer, categorical and fixed variables), every setting with domain scaling off or affine without integer variables, every behaviour of the search steps, every sequence of calls and restarts, every random draw; parallel engine: every interleaving of workers and every crash point and every exception of a worker", "why_tests_cant": "Depends on all earlier evaluations of a run, across restarts, scaling and decoding of points; tests see single runs.", "anchors": ["src/rbfopt/rbfopt_algorithm.py:RbfoptAlgorithm.restart", "src/rbfopt/rbfopt_algorithm.py:RbfoptAlgorithm.remove_existing_nodes", "src/rbfopt/rbfopt_algorithm.py:RbfoptAlgorithm.optimize_serial", "src/rbfopt/rbfopt_utils.py:initialize_nodes"]}
{"id": "C78", "title": "Search steps propose feasible points of their search box", "statement": "The pure global search step, the global search step and the local search step propose only feasible points of the problem (within the bounds, integral on integer variables, one category per categorical variable), whatever method solves the auxiliary problem (genetic algorithm, sampling, solver), and the real and integer coordinates of a point of the global step are in the box that the step restricts its search to. Genetic algorithm and sampling always propose a point. The local search step that says its point is not adjusted proposes a point at which the RBF improves on the best value by at least eps_impr (relative); otherwise the minimum found for the RBF is no such improvement, and the point lies in the local search box around it. In the second phase of two-phase optimization it may instead return an existing node, which is the one closest to the point found and is a noisy one if that point is within min_dist of it.", "quantifier": "every problem, every set of nodes, every setting, RBF and fitness function, every random draw, every result of the solver that is feasible up to integrality tolerance", "why_tests_cant": "Needs every random draw, every box and every solver result, in all combinations of real, integer and categorical variables.", "anchors": ["src/rbfopt/rbfopt_algorithm.py:pure_global_step", "src/rbfopt/rbfopt_algorithm.py:global_step", "src/rbfopt/rbfopt_algorithm.py:local_step", "src/rbfopt/rbfopt_aux_problems.py:pure_global_search", "src/rbfopt/rbfopt_aux_problems.py:global_search", "src/rbfopt/rbfopt_aux_problems.py:minimize_rbf"]}
{"id": "C79", "title": "Refinement step: feasible point and reported model decrease", "statement": "The refinement step proposes a feasible point of the problem or none. Unless it is a point that improves the geometry of a rank-deficient model set, the improvement it reports is the decrease of the linear model from the center to that point, the index to replace is that of a point of the model set farthest from the center, and it proposes no point exactly if the norm of the gradient is at most ref_min_grad_norm. For a geometry-improving point the reported improvement is the value of the linear model instead of its decrease, and the index refers to the model set without the center.", "quantifier": "every problem, every set of nodes and model set, every linear model, radius, QR factorization and random draw", "why_tests_cant": "Needs every linear model and random rounding, in all combinations of real, integer and categorical variables.", "anchors": ["src/rbfopt/rbfopt_algorithm.py:refinement_step", "src/rbfopt/rbfopt_refinement.py:get_candidate_point", "src/rbfopt/rbfopt_refinement.py:get_integer_candidate", "src/rbfopt/rbfopt_refinement.py:get_model_improving_point"]}
{"id": "C80", "title": "Re-evaluation of noisy nodes in parallel runs", "statement": "In a parallel run, a record is removed only when a local search of a two-phase run asks for its node to be evaluated again: then exactly that node and its record are removed (unless an interrupted restart was forgotten, see C90) and, unless the point is too close to another node or outstanding evaluation or an old accurate value can be reused, the point is submitted for evaluation. If the point to be re-evaluated is itself an outstanding noisy evaluation, nothing is submitted and the noisy result is later ignored, so neither value is ever recorded (violation of what a user expects). If two local searches running at the same time ask for the same noisy node, the accurate record made on behalf of the first is removed when the second finishes, and the point is evaluated accurately twice.", "quantifier": "every reachable state of a parallel run, every result of a search; plus concrete runs for the violations", "why_tests_cant": "Needs a noisy evaluation that is still outstanding at the switch to the accurate phase, and a local search that selects this point.", "anchors": ["src/rbfopt/rbfopt_algorithm.py:optimize_parallel", "src/rbfopt/rbfopt_algorithm.py:remove_node", "src/rbfopt/rbfopt_algorithm.py:local_step"]}
{"id": "C81", "title": "RbfoptUserBlackBox passes the problem and the evaluations through unchanged", "statement": "The constructor succeeds exactly when the three arrays have the declared length, and the object then reports the given dimension, bounds, types, and has_evaluate_noisy() exactly when a noisy function was given. evaluate and evaluate_noisy call the user's function on points of the right length, raise AssertionError on others, and evaluate_noisy raises NotImplementedError without a noisy function. In a whole serial run on such an object (search steps and samples computed as the code does, problem well formed), no call made by the optimizer makes the wrapper raise, and each call carries what the user's function returned.", "quantifier": "all dimensions, bounds, types, (stateful) user functions, points; all reachable states of all serial runs", "why_tests_cant": "A test runs one function on one problem; that the optimizer never passes a point of wrong length or asks for a noisy value that does not exist concerns all runs.", "anchors": ["src/rbfopt/rbfopt_user_black_box.py: RbfoptUserBlackBox", "src/rbfopt/rbfopt_algorithm.py: objfun, objfun_noisy, optimize_serial"]}
{"id": "C82", "title": "The noisy test black box keeps its own interval promise", "statement": "TestNoisyBlackBox.evaluate_noisy returns a value and error bounds such that the accurate value lies in [value+lower, value+upper], lower <= 0 <= upper, and the deviation is at most max_rel_error*|accurate value| + max_abs_error; with both zero the value is exact.", "quantifier": "all accurate values, all error levels, all random draws", "why_tests_cant": "Depends on random draws of arbitrary real values; a test samples a few.", "anchors": ["src/rbfopt/rbfopt_test_functions.py: TestNoisyBlackBox.evaluate_noisy"]}
{"id": "C83", "title": "Test functions of increased dimension keep their optimum", "statement": "TestEnlargedBlackBox: at its declared optimum point the enlarged function takes its declared optimum value; the declared optimum is feasible; every feasible point can be evaluated and its value is at least the declared optimum value (if the original function has its minimum there) - for every permutation, grouping and weights the constructor may draw; for such data no division by zero occurs. Exception (defect): with a categorical variable that has negative values the function cannot be evaluated (np.bincount raises ValueError).", "quantifier": "all test functions with consistent data, all multipliers, all random permutations, groupings and weights, all feasible points; exact arithmetic", "why_tests_cant": "The transformation is random: a test sees one permutation.", "anchors": ["src/rbfopt/rbfopt_test_functions.py: TestEnlargedBlackBox.__init__, TestEnlargedBlackBox.evaluate"]}
{"id": "C84", "title": "Interpolant with fewer nodes than dimensions", "statement": "With fewer than n+1 nodes, get_rbf_coefficients_underdet() returns, whenever the interpolation conditions can be met, coefficients that meet them, of least Euclidean norm among those that do. For affinely independent nodes this is always possible: the returned function is affine (no radial part), goes through every node value, and its coefficients have least norm.", "quantifier": "all nodes, values, categorical groups and RBF types; the least-squares routine is assumed to return a minimum-norm least-squares solution; real arithmetic", "why_tests_cant": "It must hold for every node set; tests try a few.", "anchors": ["src/rbfopt/rbfopt_utils.py: get_rbf_coefficients_underdet, get_degreem1_matrix", "src/rbfopt/rbfopt_algorithm.py: RbfoptAlgorithm.optimize_parallel"]}
{"id": "C85", "title": "Estimates for evaluations in progress", "statement": "In the parallel engine every point under evaluation gets a provisional value between the smallest and the largest known value. Without scaling and clipping it is the value predicted by the model of the known values, so at a known node it is the known value. With affine or logarithmic scaling this is violated (defect): the model is built on the scaled values, but its predictions are clipped to the range of the unscaled ones, so e.g. with affine scaling and all values at least 1 the estimate is always the smallest known value.", "quantifier": "all node values, settings and points under evaluation; real arithmetic", "why_tests_cant": "It must hold for every set of values; the tests only check that a value is returned.", "anchors": ["src/rbfopt/rbfopt_algorithm.py: RbfoptAlgorithm.optimize_parallel", "src/rbfopt/rbfopt_utils.py: bulk_evaluate_rbf, get_rbf_coefficients_underdet, transform_function_values"]}
{"id": "C86", "title": "Sign of the bumpiness in the choice of re-evaluated nodes", "statement": "The node selected for re-evaluation by get_min_bump_node() is, among the eligible nodes, one whose interpolant through the target is least bumpy, where bumpiness is (-1)^(degree+1) lambda^T Phi lambda as in the optimization models, and it is preferred to the new point only if it is less bumpy. This holds for the cubic, thin plate spline and Gaussian RBF. Defect: for the linear and multiquadric RBF the sign is missing, so the most bumpy node is selected and the comparison with the new point is reversed.", "quantifier": "all node values, error intervals, targets, RBF types and coefficient computations", "why_tests_cant": "All inputs; the tests use the default RBF only.", "anchors": ["src/rbfopt/rbfopt_aux_problems.py: get_min_bump_node, get_bump_new_node"]}
{"id": "C87", "title": "Exceptions of the black box leave the optimization resumable", "statement": "If evaluate() or evaluate_noisy() raises an exception during a call of optimize() on one CPU (or if no initial sample can be found), the exception leaves optimize() and the object can be used again: calling optimize() once more continues the optimization. No record made before is lost (for black boxes without evaluate_noisy), the tables stay aligned, the tracked best value is the least recorded value, every accurate record has a genuine source, all points stay feasible, the minimum distance is kept, a restart that was interrupted is carried out by the next iteration, and a later optimize() returns a value not larger than any value the black box returned except those dropped. Interrupted restarts count towards the limit on restarts with noisy samples. What is lost: the values of a sample already computed when the exception occurred are neither recorded nor counted and the points may be evaluated again; in two-phase optimization an interrupted accurate re-evaluation loses the noisy record that was to be replaced and leaves the tracked best value stale.", "quantifier": "all problems, settings, search steps and black boxes, all histories of calls on one object in which any number of calls end with an exception at any evaluation (or return, or are abandoned and reloaded)", "why_tests_cant": "an exception can strike at any evaluation of any call, after any history; tests inject a few", "anchors": ["src/rbfopt/rbfopt_algorithm.py:RbfoptAlgorithm.optimize_serial", "src/rbfopt/rbfopt_algorithm.py:RbfoptAlgorithm.restart", "src/rbfopt/rbfopt_algorithm.py:objfun"]}
{"id": "C88", "title": "Declared optima of the bundled test functions", "statement": "TestBlackBox instances are used to measure how far a run is from the known optimum. For 44 of the 54 bundled functions (branin, camel, goldsteinprice, ex4_1_1, ex8_1_1, ex8_1_4, least, rbrock, perm_6, perm0_8, gear4, nvs02/03/04/06/07/09/14/15/16, prob03, sporttournament06, st_miqp1/3, st_test1, the ten schoen and four schaeffer functions, branin_cat, ex8_1_1_cat, gear4_cat, nvs07_cat, st_miqp1_cat) evaluate() returns a value at every point that respects bounds and integrality, the declared optimum_point (and every additional optimum) respects them and has the declared optimum_value up to the tolerance in the theorem (between 0 and 1e-4), and no such point has a value below optimum_value by more than that tolerance. For seven functions the declaration is wrong and the theorem says how: gear (the declared value 0 is never attained and the declared point is not optimal), nvs09_cat (a point better by more than 2 exists), shekel5, shekel7, shekel10, hartman3 and ex4_1_2 (points better by more than 3.8e-6, 1.2e-4, 1.26e-4, 1e-4 and 7e-4 exist). For the other three (hartman6, hartman3_cat, hartman6_cat) every admissible point has a value and the declared point is admissible; optimality of the declared value is not part of this property.", "quantifier": "all points of the domain of each of the 54 bundled functions (real arithmetic)", "why_tests_cant": "A test evaluates finitely many points; that no point of a continuous or astronomically large integer domain is better needs a proof.", "anchors": ["src/rbfopt/rbfopt_test_functions.py: branin ... st_miqp1_cat (22-2636)", "src/rbfopt/rbfopt_test_functions.py: TestBlackBox"]}
{"id": "C89", "title": "Which surrogate model is in use", "statement": "An RBF type and a function scaling fixed in the settings are the ones used in every pass of every call. With rbf='auto' the model in use is always a supported one or the thin plate spline with the user's shape parameter; it is selected exactly at the beginnings of cycles with more than n+2 nodes, at most max_cross_validations times; the last selection takes the most frequent non-failed model (the fallback to cubic is never used) and afterwards the local and the global model never change, even if they fail. The local model is used from the last global search step on, the global one before. A failure of the linear solver marks the latest selection of the model in use as failed and changes nothing else (in a parallel run before the first selection it ends the call with an IndexError). Gutmann's method, if requested, is used exactly when there are more than n nodes, MSRSM otherwise. With function_scaling='auto' on one CPU the logarithm is used exactly if at the last beginning of a cycle at most half of the node values were within log_scaling_threshold of the smallest. In a parallel run only beginnings of cycles of the current call count, so that pausing in the middle of a cycle changes the scaling (violated).", "quantifier": "all histories of passes and calls, all node values, cross-validation errors and failures of the linear solver", "why_tests_cant": "The model in use depends on the whole history of selections and failures and on where calls begin.", "anchors": ["src/rbfopt/rbfopt_algorithm.py: RbfoptAlgorithm.optimize_serial (883-984)", "src/rbfopt/rbfopt_algorithm.py: RbfoptAlgorithm.optimize_parallel (1217, 1560-1670)", "src/rbfopt/rbfopt_utils.py: get_best_rbf_model", "src/rbfopt/rbfopt_settings.py: set_auto_parameters"]}
{"id": "C90", "title": "Exceptions of workers leave a parallel optimization resumable", "statement": "If the black box raises an exception in a worker during a parallel call of optimize() (also at the initial points given by the user) (or if no sample can be found), the exception leaves optimize() and the object can be used again. The exception itself changes no record and no tracked best value; what is lost are the evaluations still running and, if a restart was waiting for its sample, the whole sample, including results already returned. Every submitted evaluation, lost or not, stays counted, and has exactly one fate: recorded, ignored, replaced by another evaluation, or lost. All properties of the parallel engine (aligned tables, tracked best, counters, genuine records, feasibility, no point evaluated twice unless lost) hold in histories with such exceptions. An interrupted initialization or restart is repeated by the next call before anything else is submitted, whenever it is still due. Violation: since the lost sample is counted against max_evaluations, a restart caused by stalling may no longer be due; then it is never repeated, and the object goes on with nodes it takes for records of before the restart; in two-phase optimization a later re-evaluation of a node destroys the record of another point.", "quantifier": "all problems, settings, searches and black boxes, all interleavings of workers, all histories of calls in which any number of calls end with an exception of a worker at any point (or return, or are abandoned and reloaded); concrete runs for the violation", "why_tests_cant": "Needs exceptions at every place where the result of a worker is awaited, in particular during a restart close to the evaluation limit.", "anchors": ["src/rbfopt/rbfopt_algorithm.py:optimize_parallel", "src/rbfopt/rbfopt_algorithm.py:restart", "src/rbfopt/rbfopt_algorithm.py:remove_node"]}
{"id": "C91", "title": "Arrays handed to user code", "statement": "The records an object keeps do not depend on what user code does with the arrays it is handed, exactly under these conditions: evaluate() (and evaluate_noisy()) may overwrite its argument, during the call or later, if the problem has categorical or fixed variables or if evaluations run in other processes; the caller of optimize() may overwrite the point it gets back if the problem has categorical variables. Under these conditions every recorded point has, at every moment of the life of the object, the coordinates it had when its value was determined, and points behave as values. Outside of them there are runs that falsify a record: in a serial run without categorical and fixed variables evaluate() is given the very array that is recorded afterwards, and optimize() returns a row of the record. In every case: the starting points given to the constructor are never changed, the interpolation nodes are changed by the algorithm only, and an evaluate() that writes can falsify only the point it is evaluating, never records made before. A noisy evaluation that overwrites its argument makes the accurate evaluation that follows it look at another point.", "quantifier": "every problem, every order of evaluations, restarts, node removals, returns, saves and loads, and every sequence of writes by evaluate() and by the caller into any array they were ever given", "why_tests_cant": "a test fixes one black box; the damage depends on what user code writes, when, and which references it has kept", "anchors": ["src/rbfopt/rbfopt_algorithm.py: objfun, objfun_noisy, add_node, add_noisy_node, remove_node, restart, remove_existing_nodes, optimize, save_to_file, load_from_file", "src/rbfopt/rbfopt_utils.py: transform_domain, bulk_transform_domain, expand_categorical_vars, compress_categorical_vars"]}
{"id": "C92", "title": "The interpolation system is uniquely solvable for distinct unisolvent nodes", "statement": "For each of the five basis functions and every node set, the linear system of get_rbf_coefficients (after eliminating the column of the last binary of each categorical variable) is nonsingular if and only if no two nodes coincide and no nonzero polynomial of the degree of the model (linear for cubic and thin plate spline, constant for linear and multiquadric, none for Gaussian) vanishes at all nodes; so get_rbf_coefficients and get_matrix_inverse raise LinAlgError exactly otherwise, whatever the values, and the interpolant is then unique. Adding distinct nodes keeps the system solvable, and the samples of the strategies lower_corners and all_corners always give a solvable system. Assumed: exact arithmetic, no matrix entry strictly between 0 and eps_zero (automatic for integer nodes with the linear and cubic functions), and a positive shape parameter for the Gaussian. The exceptions are real: shape parameter 0 (it is not validated) makes the Gaussian system of two or more nodes singular, and two nodes closer than eps_zero make the linear one singular because small entries are zeroed.", "quantifier": "all basis functions, shape parameters, dimensions, numbers and positions of nodes, categorical groups and node values", "why_tests_cant": "The nonsingularity of the matrix for every configuration of nodes is a theorem about conditionally definite functions (for arbitrary dimension and number of nodes); tests evaluate single configurations.", "anchors": ["src/rbfopt/rbfopt_utils.py:get_rbf_function", "src/rbfopt/rbfopt_utils.py:get_degree_polynomial", "src/rbfopt/rbfopt_utils.py:get_size_P_matrix", "src/rbfopt/rbfopt_utils.py:get_rbf_matrix", "src/rbfopt/rbfopt_utils.py:get_rbf_coefficients", "src/rbfopt/rbfopt_utils.py:get_matrix_inverse", "src/rbfopt/rbfopt_utils.py:get_lower_corners", "src/rbfopt/rbfopt_utils.py:get_all_corners"]}
{"id": "C93", "title": "Runs are reproducible from the seed", "statement": "Whatever the process has done before, constructing an RbfoptAlgorithm with the same settings, black box and rand_seed and calling optimize() with the same arguments (one CPU) gives the same results, records and black box calls and leaves numpy's generator in the same state. An object that is not used is never changed by what happens in the process, so a resumed run can only be influenced through numpy's global generator; if that is in the same state, the next call gives the same result. (The generator is shared: constructing or running another object between two calls changes the run, and all workers of all parallel calls start from the same generator state, so workers executing the same tasks produce the same random results.)", "quantifier": "every history of the process, all settings, black boxes, seeds and sequences of pause lengths", "why_tests_cant": "Equality of whole executions in arbitrary processes, for every history before and between the calls.", "anchors": ["src/rbfopt/rbfopt_utils.py:init_environment", "src/rbfopt/rbfopt_algorithm.py:RbfoptAlgorithm.__init__", "src/rbfopt/rbfopt_algorithm.py:optimize", "src/rbfopt/rbfopt_algorithm.py:optimize_parallel", "src/rbfopt/rbfopt_algorithm.py:load_from_file"]}
{"id": "C94", "title": "Command line options determine the settings", "statement": "When the optimizer is run from the command line, the settings it works with are exactly those of the command line: every parameter of RbfoptSettings can be given as an option of the same name, an option that is not given leaves the default of RbfoptSettings(), of an option given more than once the last value counts, the options of the interface itself (log file, state files, points file, pause, printing) change no parameter, a name that is not registered is accepted only as an unambiguous abbreviation, and the command line is accepted exactly if every option is known, every argument converts and every resulting value is in its documented range. Not so for the yes/no options, whose argument may be any literal. When the program finishes, the object it optimized is the state of the last --load, or else a new one with the points of the last --points_from_file; optimize() was called with the last --pause, or without limit; the resulting object was saved in the file of the last --save, if there is one; and the program does finish if each of these steps succeeds. If the options are not accepted, the first offending one decides: the usage message, or the unexpected exception of its conversion. A black box path that is no file, or whose black box is not an RbfoptBlackBox, ends in ValueError, and an exception of that file is passed on.", "quantifier": "all sequences of options and arguments, all behaviours of the conversions from text", "why_tests_cant": "The command lines are all finite sequences of options, with abbreviations and repetitions; a test tries a few of them, and a parameter that is silently not passed on shows only in the course of the optimization.", "anchors": ["src/rbfopt/rbfopt_cl_interface.py:register_options", "src/rbfopt/rbfopt_cl_interface.py:rbfopt_cl_interface", "src/rbfopt/rbfopt_test_interface.py:register_options", "src/rbfopt/rbfopt_settings.py:RbfoptSettings.from_dictionary", "src/rbfopt/rbfopt_cl_interface.py:main"]}
{"id": "C95", "title": "Restarts because of wasted iterations follow the documented window rule", "statement": "When optimize() is run in a single phase, at the first step of every cycle the algorithm starts over exactly when (a) at least half a window of iterations has passed since the last restart and at least the fraction max_fraction_discarded of the last discarded_window_size of them recorded no new point, or (b) max_stalled_iterations iterations passed without progress and there is budget left for another attempt; the only other cause of a restart is an unsolvable model. Iterations before the last restart are not counted, and splitting the run over several optimize() calls or save/load does not change the window. At later steps of a cycle there is no restart for these reasons, and with max_fraction_discarded above 1 (and a non-empty window) none because of discarded iterations. In parallel runs the same holds with the outcomes of searches (point sent for evaluation or given up; results taken over from old records leave no trace) and a window of discarded_window_size * num_cpus, except that the run first waits, without starting new work, until nothing is outstanding.", "quantifier": "All settings (single-phase), all black boxes, all histories of optimize() calls, pauses, saves and loads, all iterations", "why_tests_cant": "The window is a bounded deque updated from five different branches of the loop; a test sees a few histories, whereas an off-by-one in the window or a missed push shows only for particular sequences of discarded and successful iterations around restarts.", "anchors": ["src/rbfopt/rbfopt_algorithm.py:RbfoptAlgorithm.optimize_serial", "src/rbfopt/rbfopt_algorithm.py:RbfoptAlgorithm.optimize_parallel", "src/rbfopt/rbfopt_algorithm.py:RbfoptAlgorithm.restart", "src/rbfopt/rbfopt_settings.py:RbfoptSettings"]}
{"id": "C96", "title": "The distance helpers return true Euclidean distances, with the first extremal index", "statement": "distance() of two points with the same number of coordinates is their Euclidean distance (a metric: non-negative, symmetric, zero only for equal points, with the triangle inequality), norm() is the distance from the origin, and points of different dimension are refused with AssertionError. get_min_distance() and get_max_distance() return the smallest and largest distance from a non-empty set of points; the _and_index variants return the same value with the index of the first point attaining it; an empty point or empty set is refused with AssertionError. bulk_get_min_distance() returns for each point of a set what get_min_distance() returns for it. Hence the distance from a set of nodes is zero exactly at the nodes and changes by at most the distance moved.", "quantifier": "All dimensions, all points and all finite sets of points with real coordinates", "why_tests_cant": "Ties, empty inputs and wrong axes of the reductions show only for particular shapes; a test has a few point sets.", "anchors": ["src/rbfopt/rbfopt_utils.py:norm", "src/rbfopt/rbfopt_utils.py:distance", "src/rbfopt/rbfopt_utils.py:get_min_distance", "src/rbfopt/rbfopt_utils.py:get_min_distance_and_index", "src/rbfopt/rbfopt_utils.py:get_max_distance", "src/rbfopt/rbfopt_utils.py:get_max_distance_and_index", "src/rbfopt/rbfopt_utils.py:bulk_get_min_distance"]}
{"id": "C97", "title": "What a returned value says about the true optimum, and what the test interface runs", "statement": "For a black box without evaluate_noisy() that computes a function f, the value optimize() returns is f at a feasible point of the user's problem, namely the returned point or one that is reached from it by jumps of less than eps_zero (so the returned point itself, if distinct feasible points are at least eps_zero apart), so it is never below a lower bound of f; and it is at most f at every point that was evaluated. If no limit (evaluations, noisy evaluations, iterations, cycles, time, size of the search space) ended the run and target_objval is within tol of the minimum, the value is within tol + eps_opt (relative to the target) of the minimum. With several CPUs the same holds for every order in which the workers answer, for the points whose evaluation was recorded. With evaluate_noisy() whose values are within delta of f, the same value and lower bound hold up to delta, and exactly if the returned record is flagged accurate. For a bundled test function whose declared optimum is right (C88) and is used as target, the value lies between the declared optimum and that plus eps_opt. The test interface builds the black box it was asked for (dimension multiplied if the multiplier exceeds 1, noise if an error is positive), passes every other setting on, but always replaces target_objval by the declared optimum of the function; unknown names, errors of opposite sign and names that are no functions are refused with ValueError, AssertionError and AttributeError, while multipliers and errors that are not positive are silently ignored.", "quantifier": "All deterministic objective functions, all settings, all outcomes of the solvers, all schedules of the workers and all lengths of the run; all command lines of the test interface", "why_tests_cant": "A test runs a handful of functions from a few seeds; that the success of a run implies a bound on the distance from the true optimum, for every function and every behaviour of the solvers, is a statement about all runs.", "anchors": ["src/rbfopt/rbfopt_algorithm.py:RbfoptAlgorithm.optimize", "src/rbfopt/rbfopt_algorithm.py:RbfoptAlgorithm.optimize_serial", "src/rbfopt/rbfopt_test_interface.py:rbfopt_test_interface", "src/rbfopt/rbfopt_test_functions.py:TestBlackBox", "src/rbfopt/rbfopt_test_functions.py:TestNoisyBlackBox", "src/rbfopt/rbfopt_test_functions.py:TestEnlargedBlackBox"]}
{"id": "C98", "title": "What one iteration evaluates and records, with or without evaluate_noisy", "statement": "In a run on one CPU, an iteration without restart takes out at most one node together with its record, to evaluate it again, and only in two-phase optimization, in accurate mode and in the local search step. Then either nothing is evaluated or recorded (and a node taken out was within min_dist of another one), or exactly one point is recorded, the one taken out if any, farther than min_dist from the remaining nodes. Its value is obtained in one of these ways: in accurate mode by one call of evaluate(), unless the closest record made before the last restart is within eps_zero and accurate, whose value is then used without a call; in noisy mode by one call of evaluate_noisy() (or from such an old record, noisy or not), followed by one call of evaluate() if and only if the noisy value lowered by its error may be an improvement of at least eps_impr or may reach the target. All calls are at the recorded point.", "quantifier": "every black box, with or without evaluate_noisy, every setting, every behaviour of the search steps, every reachable state of a running call", "why_tests_cant": "it constrains every iteration of every history; a test looks at the iterations of a few runs", "anchors": ["src/rbfopt/rbfopt_algorithm.py:RbfoptAlgorithm.optimize_serial", "src/rbfopt/rbfopt_algorithm.py:RbfoptAlgorithm.local_step", "src/rbfopt/rbfopt_algorithm.py:RbfoptAlgorithm.require_accurate_evaluation", "src/rbfopt/rbfopt_algorithm.py:RbfoptAlgorithm.remove_node"]}
{"id": "C99", "title": "Starting points and options handed to the mathematical programming solvers", "statement": "When a search uses a mathematical programming solver, the random starting point handed to it lies in the box of the search, and for problems without integer and categorical variables it is a feasible point of the auxiliary problem; for MSRSM the auxiliary distance variable starts at the largest value its constraints admit there, and its own bound is respected exactly if the point is at least sqrt(min_dist) from every node. With integer or categorical variables the start may violate the constraints although the docstrings promise a feasible point. The minimization of the surrogate starts at the node handed over and consumes no random numbers. The solver gets a fixed list of options, independent of the settings (also of max_clock_time): 20 seconds of CPU time, 1000 iterations, acceptable tolerance 0.001, no relaxation of bounds, for the MINLP solver branch and bound with a few retries, for the NLP solver the original bounds; and, for the MINLP solver only, a seed between 0 and 2^31-3 taken from numpy's generator; a random start consumes one random number per variable, the seed one, nothing else is consumed.", "quantifier": "All boxes, numbers of variables, nodes, streams of random numbers and previous solver options", "why_tests_cant": "The starts are random; a test sees a few draws, and only with the solver installed.", "anchors": ["src/rbfopt/rbfopt_aux_problems.py: initialize_instance_variables, initialize_msrsm_aux_variables, set_minlp_solver_options, set_nlp_solver_options"]}
{"id": "C100", "title": "The least bumpy model through the error intervals is well posed", "statement": "With evaluate_noisy(), the surrogate is the least bumpy model whose values at the nodes lie in the nodes' error intervals. For distinct nodes (and, for existence, nodes that determine the polynomial, with intervals containing the values) such a model exists, any two of them have the same coefficients of the basis functions, and the same value at every point where the nodes with exact values determine the polynomial. The quadratic program is convex: from any admitted model that is not optimal there is a direction of immediate improvement, so a local solver cannot stop at a worse local optimum. If all values are exact, the program admits only the ordinary interpolant; in general its solution is at most as bumpy as the ordinary interpolant, and wider intervals never increase the bumpiness. If no value is exact the model need not be determined (every constant may be optimal), so the run depends on the solver.", "quantifier": "All node sets, values, error intervals and basis functions (matrices without entries below eps_zero)", "why_tests_cant": "Uniqueness and global optimality are statements about all competing models; a test compares with finitely many.", "anchors": ["src/rbfopt/rbfopt_aux_problems.py: get_noisy_rbf_coefficients", "src/rbfopt/rbfopt_degree1_models.py: create_min_bump_model", "src/rbfopt/rbfopt_degree0_models.py: create_min_bump_model", "src/rbfopt/rbfopt_degreem1_models.py: create_min_bump_model"]}
{"id": "C101", "title": "What is printed can be read back, and the summary shows the result", "statement": "Every line the program writes about the run can be read back unambiguously whatever the size of the numbers: split at spaces, a line of the log is the iteration, the cycle, the tag, the value (with '~' exactly if it is noisy), the time, the gap in percent, and a final '*' exactly if the object notes the value as a new best; a message line is the iteration, the cycle, the message and the time; the summary is its labels and numbers in a fixed order. Integers are printed exactly, other numbers to within half a unit of the last decimal (six decimals for values), and numbers with no more decimals exactly. While the numbers fit their columns (values up to ten billion), they end below the ends of their headers; all tags and messages of the program fit. In single-phase optimization, with one or several CPUs, the value in the summary is the value that optimize() returns and '~' tells whether its record is noisy; in two-phase optimization the summary can show a better value than the returned one (shown on a concrete run). The line written by the settings' print method, split at commas, lists every setting exactly once, in the order of the names, as 'name: value', if no value is written with a comma.", "quantifier": "All states, tags, values, gaps and times; all single-phase runs and schedules for the summary; all settings.", "why_tests_cant": "Tests look at a few lines; the claim is about numbers of every size and every run.", "anchors": ["src/rbfopt/rbfopt_algorithm.py: print_init_line, update_log, print_summary_line, optimize", "src/rbfopt/rbfopt_settings.py: RbfoptSettings.print"]}
{"id": "C102", "title": "InfSteps cover the search space", "statement": "If the solver of the InfStep problem returns a point of the search space that is farthest from the nodes up to a tolerance tau, then: an InfStep that records no point means every point of the search space is within min_dist + tau of a node; and in any stretch of a serial run in which no node is taken out (no restart, no restoration), once there have been more InfSteps than there are boxes of side delta in the box of the variables, every point of the search space is within max(r, min_dist) + tau of a node, where r bounds the distance of two points of a box. With Euclidean distances computed up to an error rho, r may be sqrt(n) * delta + rho in dimension n.", "quantifier": "every objective, solver meeting the assumption, settings, state, tolerance, box side and number of passes", "why_tests_cant": "It is a statement about runs of any length on any box and any answers of the solver; a test sees one run.", "anchors": ["src/rbfopt/rbfopt_algorithm.py: optimize_serial, pure_global_step", "src/rbfopt/rbfopt_aux_problems.py: MaximinDistanceObj, pure_global_search", "src/rbfopt/rbfopt_utils.py: get_min_distance"]}
{"id": "C103", "title": "The number of nodes stays bounded", "statement": "However many iterations, evaluations, restarts and calls there are, the interpolation nodes number at most the initial points of the current restart plus a number that depends only on the box of the variables, the distance and min_dist (the number of boxes whose points are within min_dist of one another). Hence in a stretch of a serial run in which no node is taken out, all but that many iterations record nothing. In a parallel run the bound holds while the main loop runs.", "quantifier": "every reachable state of the serial engine, every schedule of the parallel engine, every box, distance and min_dist; points in the box of the variables", "why_tests_cant": "The claim is about runs of any length; a test sees one length.", "anchors": ["src/rbfopt/rbfopt_algorithm.py: optimize_serial, optimize_parallel, restart", "src/rbfopt/rbfopt_utils.py: get_min_distance"]}
{"id": "C104", "title": "What covering the search space says about the optimum", "statement": "Serial run, no evaluate_noisy, no domain scaling, black box that computes a function f: if every point of a set D of feasible points is within R of a node and f grows by at most L times the distance, the tracked best value and the value returned are at most L*R above the minimum of f over D (plus the change of f between points that the algorithm identifies because they are less than eps_zero apart). With exact InfSteps this holds for the whole search space with R = max(r, min_dist) + tau after more InfSteps than boxes (C102). If different feasible points are farther than min_dist + tau apart (integer problems), an InfStep that records nothing shows that every feasible point is a node and the best value is the true minimum.", "quantifier": "every function, problem, settings, behaviour of the search steps and random draws; every number of passes", "why_tests_cant": "It is a guarantee on the value found for every objective; a test sees one objective.", "anchors": ["src/rbfopt/rbfopt_algorithm.py: optimize, optimize_serial, pure_global_step", "src/rbfopt/rbfopt_aux_problems.py: pure_global_search"]}
{"id": "C105", "title": "Affine domain scaling in floating point respects the lower bounds, and the upper bounds up to rounding", "statement": "With domain_scaling 'affine' (or chosen by 'auto') and all variables that are not fixed real, computed in an arithmetic in which every operation is rounded (as in double precision without overflow and underflow): the internal points of points within the bounds lie in the unit box; every point at which the black box is called (with one CPU, or with workers in the absence of evaluate_noisy) has its fixed variables at their values, respects the lower bounds, and respects the upper bounds or, where that is larger, the value of (upper - lower) + lower computed with rounding; this value is attained, equals the upper bound if the width upper - lower is computed exactly, and exceeds it by at most a rounding error of upper plus (about) one of upper - lower. The upper bound itself can be violated: for the bounds -0.2 and 0.1 the black box can be called at, and optimize() can return, 0.10000000000000003. A point scaled and scaled back is restored up to about four rounding errors of its distance from the lower bound and one of the lower bound.", "quantifier": "every monotone idempotent rounding that fixes 0 and 1, every continuous problem, every history of a run; for the error bounds every rounding with a relative error bound", "why_tests_cant": "Whether a bound is violated depends on the last bit of the bounds: tests use bounds such as 0, 1, 10 for which the width is exact; the claim is about all floating point bounds and all proposals of the search steps.", "anchors": ["src/rbfopt/rbfopt_utils.py: transform_domain, transform_domain_bounds", "src/rbfopt/rbfopt_algorithm.py: RbfoptAlgorithm.optimize_serial, RbfoptAlgorithm.objfun"]}
