# Formal model of coin-or/rbfopt in Lean 4 — design

## 1. Approach

The Python code is modelled function by function as small total functions, relations or transition
systems in Lean 4 (Mathlib imported module by module).  Exceptions are values (`PyErr`); loops are
structural recursion, folds or fuel-driven iteration together with a proof that the fuel suffices or
does not matter; everything the modelled code does not compute itself (random numbers, clock,
numpy/scipy linear algebra, Pyomo solvers, scheduling of worker processes, the user's black box) is a
*parameter* the theorems quantify over, so each theorem holds for every behaviour of those parts.

Layout (`lean/Verif/`):

* `Model/*`    – the model; every definition cites the file and lines of /repo it models and names its
                 simplifications.
* `Spec/*`     – small independent specifications used in the statements (reachability, genuine
                 sources of records, feasible points, boxes, documented settings, …).
* `Lemmas/*`   – helper lemmas; nothing there is a claim.
* `Props/*`    – the property theorems; the name of a claim starts with the property's id
                 (`C17_whole_run`); `_violated_` in a name marks a proved defect of the code.
* `Examples/*` – concrete non-trivial instances meeting the hypotheses, executable demonstration runs
                 of both engines, and the concrete counterexamples.

`MANIFEST.json` (generated by `tools/gen_manifest.py`) maps each property to its theorems.
`seeded/LOG.jsonl` is the record of the wrong programs the theorems were tested against.

### Numbers

* Objective values and coordinates are `ℚ` in the state-machine part (every finite double is a
  rational); arithmetic is exact: rounding errors of the few arithmetic operations of the bookkeeping
  are not modelled (except in C105, which models them for the domain scaling).  Distances are an arbitrary function `Pt → Pt → ℚ` (scipy `cdist`) unless a theorem
  says otherwise, so that nothing depends on how they are rounded.
* `ℝ` is used where `sqrt`, `log`, `exp` occur (basis functions, log scaling, refinement radius, Pyomo
  models).
* `+inf` is `⊤ : WithTop ℚ`.  NaN objective values have their own model (`Model/Nan`).

### Black box, oracles, schedules

* The black box of the serial engine is a function of the *whole history of calls made so far* and the
  point, so it may be stateful or random.  Each call is appended to a ghost log, against which counters
  and provenance are proved.  In the parallel engine the result of an evaluation may depend on the
  number of the submission.
* Search steps, model building (may raise `LinAlgError`), initial sampling, clock and the mutable rest
  of the object are oracle functions of the full state with an opaque component (`Env`).  The search
  steps, refinement steps, initial samples, scalings, RBF systems and auxiliary problems are modelled in
  their own modules, and `Props/Samples`, `Props/Steps` and `Props/EndToEnd` put them in place of the
  oracles.
* The parallel engine is a transition system (`PStep`); at each poll any subset of the outstanding
  tasks may be ready.

## 2. Plan per property

| Properties | What is modelled | How it is proved |
|---|---|---|
| C01–C12, C16, C18–C26, C64 | serial engine: `Model/State`, `Model/Serial` (constructor state, `restart`, `remove_existing_nodes`, `add_node`, `add_noisy_node`, `remove_node`, loop body, loop, `optimize`) | a pass is decomposed into micro steps; invariants by induction over passes and calls (`Spec/Reach`); C11 by a lexicographic measure |
| C01–C05, C16, C17, C22, C54, C60–C63, C70–C75 (parallel parts) | `Model/Parallel`, `Model/ParallelWait`: transition system with arbitrary scheduling | invariants by induction over reachable states (`Lemmas/Parallel*`), potential function for progress |
| C13 | splitting of a run | the loop is deterministic in object, locals and environment; induction over passes |
| C14, C15 | `Model/Persist`: heap of objects, random state, file system with partial writes and crash points | case analysis of the sequence of file operations |
| C17 | feasibility of all evaluations | composition of constructor (C30), domain scaling (C34), samples (C36), search steps (C78), refinement (C79) with the engines; in parallel (`C17_parallel_whole_run`) the nodes given to a worker are any points the code can have produced (`CodePoint`), proved to include all nodes and temporary nodes |
| C27–C33 | `Model/Problem`, `Model/Numpy`: fixed, integer and categorical variables, rounding of bounds | list induction; round trips; a bijection between the user's feasible points and those of the reformulated problem |
| C34 | `Model/Domain` | algebra per coordinate |
| C35–C39 | `Model/InitNodes`: corner and Latin hypercube designs, trials, cleanup, counts | list induction, arbitrary permutations and random numbers |
| C40–C42 | gap, `Model/Scaling`, `Model/Target` | ordered field reasoning over ℚ/ℝ |
| C43–C45 | `Model/Rbf` | finite sums over ℝ; that `np.linalg.solve`/`inv` return solutions is a hypothesis |
| C46, C47, C59 | `Model/Select` | loops as folds, invariants |
| C48, C49, C68 | `Model/Genetic`, `Model/AuxObj` | induction over generations; algebra of bordered systems |
| C50–C54, C67, C79 | `Model/Refinement`, `Model/Steps` | real analysis on lists, loop invariants |
| C55, C69 | `Model/Bump`: numpy views (aliasing) modelled explicitly | fold invariants, counterexamples |
| C56 | `Model/Pyomo`: feasible sets and objectives of the models handed to the solvers | equality/closeness to the numerical functions, equivalence of feasible sets |
| C57, C58 | `Model/Settings` | decision logic compared with the documented table (`Spec/Settings`) |
| C65 | `Model/Nan` | numpy's `argmin` and Python's comparisons with NaN |
| C66, C76 | `Model/Cli` | list parsing, case analysis |
| C77 | `Spec/Records`, `Props/NoRepeat`, `Props/Distinct`, `Props/ParallelNoRepeat` | invariant on records and calls; parallel: every submission is recorded, outstanding or lost, outstanding points are apart from one another and from all nodes |
| C78 | `Model/Steps`, `Lemmas/SubBox` | composition of C42, C48, C49, C56 |

Later additions are listed at the end of this section.

Later additions:

* C80: `harvestJob`/`collectJob` of the parallel model, two-phase; one-step description of a harvested
  search, plus a concrete run for the lost re-evaluation.  C07, C24, C54 extended to the parallel engine.
* C12, C19, C21, C23 for the parallel engine: one-step classification of all transitions (`ParMove`),
  invariants over the states of a call (`CallReach`); the frequency of refinement steps by a potential
  (submitted + running refinement steps ≤ finished ones + 1).
* C01 also as an invariant of the list of calls (`HonestLog`).  C81: model of `RbfoptUserBlackBox`; the
  whole-run part composes C17, C07 and `HonestLog`.  C82: algebra of the interval.  C83: model of
  `TestEnlargedBlackBox` over exact numbers, for any function, permutation, grouping and weights.
* C84: the square (or rectangular) system of `get_rbf_coefficients_underdet` with a least-squares
  routine assumed to return a minimum-norm least-squares solution; proved by comparing it with a given
  solution.  C85: the estimates at algorithm.py 1261/1496/1546/1699 as composition of scaling, fit,
  evaluation and clipping; the violated part from C43 (interpolation at nodes).  C86: signed bumpiness as
  specification, the code's unsigned form as model, on top of C55/C69.
* C87: relations `RestartCut`, `EvalCut`, `PassCut` for the state an exception leaves behind, reachability
  `IReach` with a list of lost calls; invariants transported over the window between an interrupted restart
  and its repetition (where only `num_nodes_at_restart` is off).
* C88: the 54 test functions are written out over the reals (`Model/TestFunctions`, tables of the schoen
  functions generated by `tools/gen_schoen.py`). `BundledFn.OptimumIs tol` (`Spec/TestFunctions`) uses only
  bounds, types, values and the two declared fields. Proofs: sums of squares and case splits for the
  polynomials, enumeration of the integer coordinates with interval bounds for the rest, a weighted-mean
  argument for schoen, exact trigonometry for branin and schaeffer, certified exponentials and logarithms
  for nvs09 and hartman3. `least` by elimination of the two linear variables, which leaves a polynomial with an explicit
  positivity certificate. Not proved: that the declared values of hartman6, hartman3_cat and hartman6_cat are
  minima (only totality and admissibility of the declared point).
* C89: `Model/AutoModel` (the blocks before the matrices are built, in both loops) as a transition system
  with arbitrary position in the cycle, nodes, values, errors and failures; invariants by induction over
  histories; the scaling by induction from the end of the history.
* C90: exceptions of workers are transitions of the parallel engine (`PCut`, `RestartParCut`, and the rules
  `raises`, `firstRaises` of `PReach`), so that every theorem over `PReach` covers histories with them; a
  ghost flag `cut` marks an interrupted restart.  `C90_restart_repeated` is an invariant of the next call
  as long as the flag is set; the violations are concrete runs computed by the kernel.
* C91: `Model/Memory` follows the arrays of coordinates as references into a heap of rows (views
  share a row, `vstack`/`delete`/`array`/`copy`/list indexing make new rows) through evaluation,
  `add_node`, `remove_node`, `restart`, the return of `optimize()` and save/load; user code is an
  adversary that may overwrite any row it was ever handed.  Proved by the invariant that nodes and
  starting points are never handed out and records only by `optimize()`; the conditions are shown
  to be exact.  The control flow is abstracted (any order of operations), so the result holds for
  the runs of the other models; `C91_arrays_follow_state` connects an evaluation with `addNode`.
* C06, C64 are also proved for the parallel engine (`C06_parallel`, `C64_parallel`,
  `Props/ParallelRecords`): invariants over `PReach`, for every schedule of the workers.
* C55 (second part): the serial engine now contains the write of `get_min_bump_node()` into the error
  intervals of the current nodes (`LocalProposal.erased`, `eraseErr`), which happens in two-phase
  optimization and accurate mode with `function_scaling = 'off'`.  C03, C24 and C87 are stated with it:
  a current node keeps its recorded interval or has `(0, 0)`.  In the parallel engine `local_step` runs
  on pickled copies, so nothing is erased there.
* C92 (`Lemmas/RbfPD.lean`, `Props/RbfSolvable.lean`): strict conditional definiteness of the five basis
  functions is proved from scratch (Gaussian by expansion of exp into squares of monomials and
  separation of the nodes by products of coordinates, the others as integrals of Gaussians), then transferred to the matrix of
  the code with the eliminated columns of categorical variables: nonsingular iff the nodes are distinct and
  unisolvent. `np.linalg.solve`/`inv` are assumed to fail exactly for singular matrices; the zeroing of
  entries below `eps_zero` is a hypothesis (`NoTinyEntries`), proved for integer nodes and refuted for close
  nodes.
* C93 (`Model/Seed.lean`, `Props/Seed.lean`): a process with any number of objects and one generator;
  the constructor seeds it, `optimize()` of the serial model reads and writes it as part of its opaque
  state. Equality of results by induction on the calls; the interference of a second object is a concrete
  run.
* C94 (command line options): `Model/CliOptions.lean` has the table of options that the interface registers from the docstring of the settings class, the resolution of (abbreviated) names, the conversion of the arguments and the construction of the settings; tokenizing, short options and `--help` of argparse are not modelled, and the conversions from text are parameters.  Proved by induction on the list of options, and by C57 for the validation.  `Model/CliMain.lean` joins this with the interface function of C66 to the whole `main()`; `Props/CliMain.lean` says what a finished run has done, and that it finishes if its steps succeed.
* C95 (discarded iterations): `Spec/Discarded.lean` reads the outcome of every iteration off the states between
  the passes (counted, but no record made) in an inductive `History` over all calls, passes, returns and loads,
  forgetting everything at a restart.  `History.window` shows by induction that the model's deque is the last
  `discarded_window_size` entries of that history; `C95_restart_rule` combines it with C23.  The same for the
  parallel engine with `PHistory` (`Spec/ParallelDiscarded.lean`): an induction over the steps of the engine.
  Single-phase runs only (in two-phase mode records are removed); `PHistory` contains no calls that ended with an
  exception.
* C96 (distances): `Model/Distances.lean` follows `norm`, `distance`, the `get_min/max_distance` functions and
  `bulk_get_min_distance` over the reals (`scipy.spatial.distance.cdist` as the matrix of Euclidean distances of
  the rows); `Props/Distances.lean` states them with sums over the coordinates and proves the metric laws through
  Mathlib's `EuclideanSpace`.
* C97 (soundness of a result; test interface): `Props/Sound.lean` specialises the run with the code's own steps
  (`Model/Steps.lean`) to a black box that computes a function, and reads the value returned, its lower bound and
  the meaning of success off C01, C04, C10 and C73; `C97_test_function` joins this with C88.
  `Props/ParallelSound.lean` does the same for several CPUs, from C60, C12 and an invariant that no recorded value is lost;
  `Props/SoundNoisy.lean` for runs with noisy evaluations.
  `Model/TestInterface.lean` follows `rbfopt_test_interface.py` from the parsed arguments to the creation of the
  algorithm object.
* C06, C12 (two-phase): `Lemmas/ErrSource.lean` shows that recorded intervals come from calls, `Props/StopNoisy.lean` that the loop's gap bounds the gap of the tracked best value; `Examples/StopNoisy.lean` has a run that stops although no record reaches the target.
* C10 (parallel): `Props/ParallelNoisy.lean`, an invariant over the steps of one call: in the noisy mode the
  count is at most what the last check saw, plus the outstanding and the ignored evaluations; searches that are still
  running when the mode changes are counted as outstanding.  `Examples/ParallelNoisy.lean` has a run that exceeds the
  serial bound.
* C06 with workers: `Props/ParallelIntervals.lean` shows, for every schedule, that a recorded interval is empty or the answer of a submitted `evaluate_noisy()` (invariant `ParErrOK` over the tables and the variables `err_l`, `err_u`).
* C12 with workers and `evaluate_noisy`: `Props/ParallelStopNoisy.lean` (invariant `PGapN`: the gap tested bounds the gap of the tracked best value; uses `PReach.errOK`).
* C22 (two-phase): the serial theorem needs no assumption on the phase (a removal is followed by an addition or ends the refinement phase); with workers it holds as long as the object is in noisy mode (`Props/ParallelRefineNoisy.lean`) and fails in accurate mode, `Examples/ParallelIndices.lean` has a schedule that ends with an IndexError.
* C02 with workers and `evaluate_noisy`: `Props/ParallelBounds.lean`; in noisy mode every outstanding search was started in noisy mode, so no node is removed (invariant `BestNoisy`).
* C98: `Spec/PassNoisy.lean` lists the ways a value may be obtained (`Obtained`) and what may be taken out (`TakenOut`); `Props/PassNoisy.lean` decomposes a pass into dispatch, evaluation and addition and shows that every pass without restart is one of them. The two-phase form of the statement about a pass in C18.
- **C99** `Model/SolverStart.lean` models the two initializations and the two option setters over a stream of random numbers and reuses the feasible sets of `Model/Pyomo.lean`; direct proofs over the reals, the start that violates integrality by a counterexample.
- **C100** Uses the quadratic program of `Model/Pyomo.lean` (feasible set `PyBumpFeasible`, objective `pyBump`) and the definiteness proved for C92: strict convexity along segments gives uniqueness and no false local optima, coercivity on the side conditions and compactness give existence (`Props/NoisyUnique.lean`, `Props/NoisyExists.lean`). The solver itself is not modelled.
- **C101** `Model/Print.lean` (formatting with `{:d}`, `{:.df}`, padding; the header, log, summary and settings lines), `Spec/Text.lean` (words, numerals, comma-separated parts), `Props/Print.lean`. Numbers are exact rationals, rounded half to even as Python does for the exact value of a float; `nan` and `-0.0` are not modelled, `str` of a setting is a parameter. Proved by structural induction on the text and on the digits; the summary theorems use C01/C02.
- **C102** `Props/Coverage.lean`, `Examples/Coverage.lean`. The solver of the InfStep problem is a parameter of the model; `FarthestSearch` states the assumption on its answers (a heuristic or numerical solver may miss it). Proved by pigeonhole: two InfSteps of more than there are cells pick points of the same cell, the later one was at most `r` from a node and farthest, so all other points were as near.
- **C103** `Props/NodeBound.lean`, `Examples/NodeBound.lean`. Pigeonhole on cells with the spacing invariant of C16; `C103_whole_run` discharges 'nodes in the box' with C17. The number of cells is `cellCount`, the product over the variables of floor(width / delta) + 1.
- **C104** `Props/CoverSound.lean`, `Examples/CoverSound.lean`. C102 with the sources of records; a new invariant `SourceIn` shows that the points between a record and the evaluation it takes its value from are feasible, so 'identified points' only range over the search space (on an integer problem there are none). Non-vacuity: a run on an integer variable from 0 to 3 with exact steps.
- **C105** `Model/Rounded.lean` (`transform_domain` with every operation followed by a rounding `fl`; `rndBits prec`, round to nearest even with `prec` bits and unbounded exponent), `Props/Rounded.lean`, `Props/RoundedRun.lean`, `Examples/Rounded.lean`. The bounds are proved for every monotone idempotent `fl` fixing 0 and 1; `rndBits` is proved to be one, with relative error at most `2^-prec`. The claim on runs uses the invariant of C17 with the feasible set of the problem with widened upper bounds. The violation is a run of the model in double precision, computed by the kernel.

Nothing in the list turned out to be inexpressible.  Properties the code violates are kept with the part
that holds as a theorem and the part that does not as a proved counterexample or a proved general
statement of the defect (`…_violated_…`); the property text says both.  There are no `_partial`
theorems.

## 3. Trusted base

* Lean's kernel.  Axioms: each theorem depends on at most `propext`, `Classical.choice` and
  `Quot.sound` (`#print axioms`); no axioms are added, and neither compiled evaluation nor an external
  solver is trusted (`decide +kernel` is evaluated by the kernel).
* The reading of the code: the model is tied to the code by citation of lines only.  The code was not
  run.
* Behaviour of Python/numpy taken from their documentation: `np.argmin` (first minimum, NaN first),
  `np.around` (half to even), `np.clip`, `np.where`, list/array indexing incl. negative indices,
  `deque(maxlen)`, views of rows, pickling of an object graph, buffered writes, argparse.

### Modelled

`rbfopt_algorithm.py`: all of `RbfoptAlgorithm` (constructor, records, saving/loading, both engines,
restart, restoration, phases, refinement bookkeeping) and the module functions `pure_global_step`,
`local_step`, `refinement_step`, `global_step`, `objfun`, `objfun_noisy`.
`rbfopt_utils.py`: all functions except `init_environment`'s logger calls.
`rbfopt_aux_problems.py`: search functions, genetic algorithm, objectives, minimum bump; of the solver
only “fails / not optimal / optimal point of the model”.
`rbfopt_refinement.py`, `rbfopt_settings.py`, `rbfopt_black_box.py`, `rbfopt_user_black_box.py`,
`rbfopt_cl_interface.py`, `rbfopt_test_interface.py` (from the parsed arguments on), the three `rbfopt_degree*_models.py` (feasible sets and objectives).

### Not modelled

Floating point rounding (except in the domain scaling, C105), overflow, underflow; run time; the text of log lines other than the improvement marks; the byte
format of pickle (a partial file is assumed not to load); Pyomo, Bonmin, Ipopt; numpy/scipy internals;
the transport of multiprocessing (exceptions of workers are modelled where the main process awaits the
result); starting values and options given
to the solvers; rounding in the formulas of the test functions of
`rbfopt_test_functions.py` (the 54 formulas are modelled over the reals, decimal literals as the
rationals they denote; the noisy and the enlarged wrappers are modelled).

Simplifications worth knowing (each is also stated at its definition):

* exceptions raised by the oracles carry their type only;
* `prep` (auto-scaling, model selection) and model building are oracles of the engines; their content is
  modelled separately (C41, C43, C46, C58, C89).

## 4. Testing the theorems

`seeded/LOG.jsonl` lists, for each wrong program tried, the edited definition, the edit, the claim it
breaks and the theorems that stopped proving.  Edits that survived led to tightened or new theorems
(field `theorems_tightened`, re-runs are marked); those that still survive are equivalent programs or
the claim does not mention the changed behaviour, with the reason in the note.
