import Verif.Model.Basic

/-!
# State of `RbfoptAlgorithm`, parameters and environment

Models the attributes of class `RbfoptAlgorithm` (rbfopt_algorithm.py:35-461) that the
bookkeeping of the serial engine reads and writes.
-/

namespace Rbfopt

/-- `self.eval_mode` (rbfopt_algorithm.py:385, 390). -/
inductive Mode | noisy | accurate
  deriving DecidableEq, Repr

/-- Ghost: one call of the black box, with what it returned.
rbfopt_black_box.py:85 `evaluate`, :104 `evaluate_noisy` (value, lower and upper variation). -/
inductive Call
  | acc (x : Pt) (v : ℚ)
  | noisy (x : Pt) (v el eu : ℚ)
  deriving DecidableEq, Repr

/-- The four parallel arrays `node_pos, node_val, node_is_noisy, node_err_bounds`
(and their `all_` versions), rbfopt_algorithm.py:409-417.  They are separate lists on purpose:
that they stay aligned is a theorem. -/
structure Table where
  pos : List Pt := []
  val : List ℚ := []
  noisy : List Bool := []
  err : List (ℚ × ℚ) := []
  deriving DecidableEq, Repr

/-- Concatenation of tables, field by field (the `np.vstack`/`np.append` calls of
rbfopt_algorithm.py:1948-1954, 1994-2008). -/
def Table.append (a b : Table) : Table :=
  { pos := a.pos ++ b.pos, val := a.val ++ b.val, noisy := a.noisy ++ b.noisy,
    err := a.err ++ b.err }

/-- Settings and constructor data that the bookkeeping reads and that do not change during a run
(`l_settings`, `init_node_pos`, …).  Integer-valued settings are `ℕ` (negative values are refused
by rbfopt_settings.py:576-580; `maxCycles`, `saveInterval` and the others below are all in the
list of nonnegative parameters or used only in comparisons). -/
structure Params where
  n : ℕ
  numGlobal : ℕ
  doInf : Bool
  doLocal : Bool
  maxIter : ℕ
  maxEval : ℕ
  maxNoisyEval : ℕ
  maxCycles : ℕ
  /-- `max_clock_time`; `⊤` = no limit. -/
  maxClock : EVal
  /-- `self.search_space_size` (rbfopt_algorithm.py:450-454). -/
  searchSpace : EVal
  target : ℚ
  epsOpt : ℚ
  epsZero : ℚ
  epsImpr : ℚ
  minDist : ℚ
  /-- `discarded_window_size` (times `num_cpus`, which is 1 in the serial engine). -/
  discWindow : ℕ
  maxFracDisc : ℚ
  maxStalled : ℕ
  maxNoisyRestarts : ℕ
  maxNoisyIter : ℕ
  maxConsRef : ℕ
  threshUnl : ℚ
  threshUnlStalled : ℚ
  refFreq : ℕ
  refMinRadius : ℚ
  refShrink : ℚ
  refEnlarge : ℚ
  refMove : ℚ
  maxConsRest : ℕ
  initFrac : ℚ
  saveInterval : ℕ
  /-- `self.two_phase_optimization` = `bb.has_evaluate_noisy()` (rbfopt_algorithm.py:381-390). -/
  twoPhase : Bool
  /-- `self.do_init_strategy`. -/
  doInit : Bool
  /-- `self.init_node_pos`, already expanded and rounded (rbfopt_algorithm.py:396-403). -/
  initPos : List Pt
  /-- `self.init_node_val` (rbfopt_algorithm.py:404-407). -/
  initVal : List ℚ
  lLower : Pt
  lUpper : Pt
  deriving DecidableEq

/-- Identifiers of the search steps (rbfopt_algorithm.py:371-378). -/
def Params.infStep (_ : Params) : ℕ := 0
@[inherit_doc Params.infStep] def Params.localStep (P : Params) : ℕ := P.numGlobal + 1
@[inherit_doc Params.infStep] def Params.cycleLength (P : Params) : ℕ := P.numGlobal + 2
@[inherit_doc Params.infStep] def Params.refinementStep (P : Params) : ℕ := P.numGlobal + 2
@[inherit_doc Params.infStep] def Params.restorationStep (P : Params) : ℕ := P.numGlobal + 3
@[inherit_doc Params.infStep] def Params.firstStep (P : Params) : ℕ := if P.doInf then 0 else 1

/-- The object state.  `opaque` stands for everything the bookkeeping only passes through: random
generator state, `l_settings` fields changed during the run (rbf type, function scaling,
algorithm), cross-validation lists.  `log`, `stars`, `nInit`, `passes` are ghost fields. -/
structure Alg (O : Type) where
  itercount : ℕ
  evalcount : ℕ
  noisyEvalcount : ℕ
  step : ℕ
  cyc : ℤ
  numCons : ℕ
  numStalled : ℕ
  numNoisyRestarts : ℕ
  discarded : List Bool
  solveUnder : Bool
  mode : Mode
  cur : Table
  all : Table
  nAtRestart : ℕ
  fminIdx : ℕ
  fmin : EVal
  fmax : EVal
  fbestIdx : ℕ
  fbest : EVal
  isFminNoisy : Bool
  isFbestNoisy : Bool
  bestGapShown : EVal
  fminStall : EVal
  fminLastRefine : EVal
  iterLastRefine : ℕ
  /-- `self.ref_model_set`. -/
  refSet : List ℕ
  /-- `self.ref_radius`; initially `np.inf` in the code and always overwritten
  (rbfopt_algorithm.py:993) before it is first read, so the model starts it at 0. -/
  refRadius : ℚ
  /-- `self.ref_iterate_index`; initially `None`, always overwritten before it is first read. -/
  refIter : ℕ
  elapsed : ℚ
  opq : O
  /-- ghost: calls of the black box, oldest first -/
  log : List Call
  /-- ghost: lines printed with a star: (gap, value shown, best value then), oldest first -/
  stars : List (EVal × ℚ × EVal)
  /-- ghost: how many of the current nodes were installed by the last restart -/
  nInit : ℕ
  /-- ghost: passes of the main loop so far (lets the clock depend on them) -/
  passes : ℕ

/-- State after the constructor (rbfopt_algorithm.py:353-454). -/
def Alg.init {O : Type} (P : Params) (o : O) : Alg O :=
  { itercount := 0, evalcount := 0, noisyEvalcount := 0, step := 0, cyc := -1, numCons := 0,
    numStalled := 0, numNoisyRestarts := 0, discarded := [], solveUnder := false,
    mode := if P.twoPhase then .noisy else .accurate,
    cur := {}, all := {}, nAtRestart := 0, fminIdx := 0, fmin := ⊤, fmax := ⊤, fbestIdx := 0,
    fbest := ⊤, isFminNoisy := P.twoPhase, isFbestNoisy := P.twoPhase, bestGapShown := ⊤,
    fminStall := ⊤, fminLastRefine := ⊤, iterLastRefine := 0, refSet := [], refRadius := 0,
    refIter := 0, elapsed := 0, opq := o, log := [], stars := [], nInit := 0, passes := 0 }

/-- What the local search proposes (`local_step`, rbfopt_algorithm.py:2568-2636), as far as it is
not bookkeeping: the point of the (adjusted) local search, the node of minimum bumpiness with its
bumpiness (`get_min_bump_node`), and whether the bumpiness of the new point exceeds it. -/
structure LocalProposal where
  adj : Bool
  next : Option Pt
  /-- bumpiness returned by `get_min_bump_node`, `none` if it returned no node; `⊤` for `+inf` -/
  bump : Option EVal
  /-- outcome of `n_bump > bump` when the new point is not close to a node -/
  newBumpLarger : Bool
  /-- positions of the current nodes whose error interval `get_min_bump_node` has overwritten with
  `(0, 0)` in `self.node_err_bounds` itself: any list here; in the code none unless
  `function_scaling` is `'off'` (see `errBoundsAfterLocalStep` in `Model/Bump.lean`) -/
  erased : List ℕ := []

/-- What the refinement step proposes (`refinement_step`, rbfopt_algorithm.py:2640-2739), with
`rank_deficient` from `get_linear_model`. -/
structure RefProposal where
  next : Option Pt
  modelImpr : ℚ
  toReplace : ℕ
  rankDeficient : Bool

/-- Everything outside the modelled bookkeeping.  All functions are arbitrary; the oracles may
read the whole object state, may raise, and may change the opaque part of it. -/
structure Env (O : Type) where
  /-- scipy's Euclidean distance -/
  dist : Pt → Pt → ℚ
  /-- mapping of an internal point to the user's coordinates inside `objfun`
  (rbfopt_algorithm.py:2934-2951), modelled concretely in `Model/Problem.lean` -/
  decode : Pt → Pt
  /-- `transform_domain` (forward), modelled concretely in `Model/Domain.lean` -/
  toInternal : Pt → Pt
  /-- `transform_domain(…, reverse=True)` -/
  toOrig : Pt → Pt
  /-- the user's `evaluate`; may depend on all calls made before -/
  evalAcc : List Call → Pt → ℚ
  /-- the user's `evaluate_noisy` -/
  evalNoisy : List Call → Pt → ℚ × ℚ × ℚ
  /-- `initialize_nodes` (rbfopt_utils.py:505-624), modelled concretely in `Model/InitNodes.lean` -/
  initNodes : Alg O → Except PyErr (List Pt × O)
  /-- auto function scaling, RBF choice etc. at the start of a pass
  (rbfopt_algorithm.py:885-951): only changes the opaque part, may raise -/
  prep : Alg O → Except PyErr O
  /-- does building the RBF model raise `LinAlgError` (rbfopt_algorithm.py:954-978)? -/
  modelFails : Alg O → Bool × O
  /-- `init_refinement` (rbfopt_refinement.py:24-76): model set and radius -/
  initRef : Alg O → Except PyErr ((List ℕ × ℚ) × O)
  /-- does `get_linear_model` raise `LinAlgError` (rbfopt_algorithm.py:999-1008)? -/
  linFails : Alg O → Bool × O
  /-- `pure_global_step` / `global_step` -/
  search : Alg O → Except PyErr (Option Pt × O)
  localSearch : Alg O → Except PyErr (LocalProposal × O)
  refStep : Alg O → Except PyErr (RefProposal × O)
  /-- candidate generated by `pure_global_step` inside `restoration_search` for a given
  `to_remove`, after `round_integer_vars` (rbfopt_algorithm.py:2134-2139) -/
  restCand : Alg O → ℕ → Pt
  /-- is the RBF matrix of these nodes invertible (rbfopt_algorithm.py:2145-2154)? -/
  restInvertible : Alg O → List Pt → Bool
  /-- opaque part after `restoration_search` -/
  restOpq : Alg O → O
  /-- improvement of the real objective, in scaled values (rbfopt_algorithm.py:1155-1156) -/
  realImpr : Alg O → ℚ → Except PyErr ℚ
  /-- `time.time() - start_time` when the loop condition is tested -/
  clock : Alg O → ℚ
  /-- time spent in one call of `optimize_serial`, added to `self.elapsed_time` on return -/
  callTime : Alg O → ℚ

end Rbfopt
