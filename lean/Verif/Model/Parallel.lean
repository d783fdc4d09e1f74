import Verif.Model.Interrupt

/-!
# The parallel optimization engine

rbfopt_algorithm.py:1194-1807 `optimize_parallel`, the parallel part of `restart` (1860-1961) and
`refinement_update_parallel` (2269-2324).

The engine is a transition system.  The scheduling of the workers is nondeterministic: at every poll
any subset of the outstanding tasks may have finished, and the theorems quantify over all choices.
Results of black box evaluations, of searches and of the linear algebra are arbitrary.
-/

namespace Rbfopt

/-- `iteration_id` of a search or evaluation (rbfopt_algorithm.py:1709-1776). -/
inductive Tag | init | inf | glob | loc | adj | ref
  deriving DecidableEq, Repr

/-- An entry `[result, point, is_node_noisy, iteration_id]` of `res_eval`
(rbfopt_algorithm.py:1224-1228).  `id` is a ghost number identifying the submission. -/
structure EvalJob where
  id : ℕ
  pt : Pt
  noisy : Bool
  tag : Tag
  deriving DecidableEq, Repr

/-- An entry `[result, is_node_noisy, iteration_id]` of `res_search`
(rbfopt_algorithm.py:1229-1232). -/
structure SearchJob where
  noisy : Bool
  tag : Tag
  deriving DecidableEq, Repr

/-- What a finished search returns: the point; for `local_step` also `adj` and the index of the node
to be re-evaluated; for `refinement_step` also the improvement and the index to replace. -/
structure SearchRes where
  next : Option Pt
  adj : Bool := false
  ind : Option ℕ := none
  modelImpr : ℚ := 0
  toReplace : ℕ := 0

/-- Ghost: what became of a submitted evaluation. -/
inductive Fate
  /-- its result was added to the records -/
  | recorded
  /-- its result was ignored (too close to a node, or superseded) -/
  | skipped
  /-- its (noisy) result was promising and the point was submitted again -/
  | repeated
  /-- the process was stopped before it finished -/
  | lost
  deriving DecidableEq, Repr

/-- Where control is in `optimize_parallel`. -/
inductive PC
  /-- about to test the condition of the main loop -/
  | top
  /-- in the loop over finished evaluations; the argument is `itercount_before_rescheck` -/
  | evals (before : ℕ)
  /-- in the loop over finished searches -/
  | searches
  /-- after these loops (line 1501) -/
  | submit
  /-- about to build the model (line 1553) -/
  | model
  /-- after the main loop, with the evaluations still to be added -/
  | closing (todo : List EvalJob)
  | done
  | raised (e : PyErr)
  deriving DecidableEq, Repr

/-- State of the engine: the object, the local variables of `optimize_parallel`, and ghost fields. -/
structure PState (O : Type) where
  alg : Alg O
  /-- `res_eval` -/
  evals : List EvalJob := []
  /-- `res_search` -/
  searches : List SearchJob := []
  tPos : List Pt := []
  tVal : List EVal := []
  tNoisy : List Bool := []
  tabu : List Pt := []
  gap : EVal := ⊤
  /-- `refinement_itercount` -/
  refCount : ℚ := 0
  /-- `refinement_in_progress` -/
  refBusy : Bool := false
  /-- `err_l, err_u`, unbound at first -/
  err : Option (ℚ × ℚ) := none
  /-- `iid`, unbound at first -/
  iid : Option Tag := none
  /-- `model_impr, ref_to_replace` -/
  refData : ℚ × ℕ := (0, 0)
  rankDef : Bool := false
  /-- ghost: points (in the original space), modes and kinds submitted to the workers; the index is
  the job number -/
  subs : List (Pt × Bool × Tag) := []
  /-- ghost: what became of the jobs that are no longer outstanding -/
  hist : List (ℕ × Fate) := []
  /-- ghost: how many initial evaluations the last restart left running -/
  left : ℕ := 0
  /-- ghost: was the last restart interrupted by an exception? -/
  cut : Bool := false
  pc : PC := .top

/-- Parameters and results that only the parallel engine needs; all arbitrary. -/
structure PEnv (O : Type) where
  numCpus : ℕ
  /-- `get_min_num_init_samples_parallel()` (rbfopt_utils.py:475-500) -/
  minInit : ℕ
  /-- result of the accurate evaluation with this number -/
  acc : ℕ → ℚ
  /-- result of the noisy evaluation with this number -/
  noisyRes : ℕ → ℚ × ℚ × ℚ
  /-- surrogate value given to a temporary node (clipped).  Simplification: exceptions raised while it
  is computed are not modelled. -/
  tempVal : Alg O → Pt → EVal
  /-- are the lists of selected models empty (`settings.rbf != 'auto'`)? -/
  noCvList : Alg O → Bool
  /-- the points a search can return -/
  proposes : Pt → Prop := fun _ => True

variable {O : Type}

/-- Ghost: note what became of a job. -/
def PState.fate (s : PState O) (id : ℕ) (f : Fate) : PState O := { s with hist := s.hist ++ [(id, f)] }

/-- `pool.apply_async(objfun/objfun_noisy, [bb, orig, …])` and `res_eval.append(…)`. -/
def PState.submitEval (s : PState O) (orig pt : Pt) (noisy : Bool) (tag : Tag) : PState O :=
  { s with evals := s.evals ++ [⟨s.subs.length, pt, noisy, tag⟩], subs := s.subs ++ [(orig, noisy, tag)] }

/-- `pool.apply_async(…)` for a search and `res_search.append(…)` (rbfopt_algorithm.py:1737-1776). -/
def PState.submitSearch (s : PState O) (noisy : Bool) (tag : Tag) : PState O :=
  { s with searches := s.searches ++ [⟨noisy, tag⟩] }

/-- Appending a temporary node (rbfopt_algorithm.py:1337-1342, 1492-1499). -/
def PState.pushTemp (s : PState O) (pt : Pt) (v : EVal) (noisy : Bool) : PState O :=
  { s with tPos := s.tPos ++ [pt], tVal := s.tVal ++ [v], tNoisy := s.tNoisy ++ [noisy] }

/-- Removing a temporary node (rbfopt_algorithm.py:1298-1301). -/
def PState.popTemp (s : PState O) (j : ℕ) : PState O :=
  { s with tPos := s.tPos.eraseIdx j, tVal := s.tVal.eraseIdx j, tNoisy := s.tNoisy.eraseIdx j }

/-- rbfopt_algorithm.py:2301-2318: stop or continue refinement (parallel version: neither the limit on
consecutive steps nor the step counter is involved). -/
def refContinuePar (P : Params) (env : Env O) (s : Alg O) (toReplace : ℕ) (rankDef : Bool) :
    Except PyErr (Alg O) :=
  if s.refRadius < P.refMinRadius then .ok { s with numCons := 0 }
  else
    match s.cur.pos.getLast?, s.cur.pos[s.refIter]?, s.refSet[toReplace]? with
    | some last, some it, some r =>
      match s.cur.pos[r]? with
      | none => .error .indexError
      | some q =>
        if rankDef = true ∨ env.dist last it ≤ env.dist q it then
          .ok { s with refSet := s.refSet.set toReplace (s.cur.pos.length - 1) }
        else .ok s
    | _, _, _ => .error .indexError

/-- rbfopt_algorithm.py:2269-2324 `refinement_update_parallel`. -/
def refinementUpdatePar (P : Params) (env : Env O) (s : Alg O) (modelImpr realImpr : ℚ)
    (toReplace : ℕ) (rankDef : Bool) : Except PyErr (Alg O) :=
  let rm := updateRefinementRadius P s.refRadius modelImpr realImpr
  let s := { s with numCons := s.numCons + 1, refRadius := rm.1 }
  match s.refSet[toReplace]? with
  | none => .error .indexError
  | some r0 =>
    match refAccept env s rm.2 toReplace r0 with
    | .error e => .error e
    | .ok (s, toReplace) =>
      match refContinuePar P env s toReplace rankDef with
      | .error e => .error e
      | .ok s =>
        .ok (if s.numCons < P.maxConsRef then { s with fminLastRefine := s.fmin } else s)

/-- rbfopt_algorithm.py:1355-1364: the refinement updates after a refinement point was added. -/
def collectRefine (P : Params) (env : Env O) (s : PState O) (tag : Tag) (val : ℚ) :
    Except PyErr (PState O) :=
  if tag = .ref then
    match env.realImpr s.alg val with
    | .error e => .error e
    | .ok real =>
      match refinementUpdatePar P env s.alg s.refData.1 real s.refData.2 s.rankDef with
      | .error e => .error e
      | .ok a => .ok { s with alg := a, refCount := s.refCount + 1, refBusy := false }
  else .ok s

/-- rbfopt_algorithm.py:1365-1371: `itercount`, `stalling_update`, `phase_update`, saving. -/
def mainUpdates (P : Params) (s : PState O) : Except PyErr (PState O) :=
  match endPass P s.alg with
  | .error e => .error e
  | .ok a => .ok { s with alg := a }

/-- rbfopt_algorithm.py:1343-1364: add a finished evaluation to the records. -/
def collectRecord (P : Params) (env : Env O) (s : PState O) (job : EvalJob) (val el eu : ℚ) :
    Except PyErr (PState O) :=
  let orig := env.toOrig job.pt
  let a := if job.noisy then addNoisyNode s.alg job.pt orig val el eu else addNode s.alg job.pt orig val
  match currentGap P a with
  | .error e => .error e
  | .ok gap =>
    collectRefine P env ({ s with alg := updateLog a val gap, gap := gap }.fate job.id .recorded)
      job.tag val

/-- rbfopt_algorithm.py:1324-1342: submit a promising noisy point for accurate evaluation. -/
def collectRepeat (env : Env O) (s : PState O) (job : EvalJob) (val : ℚ) : PState O :=
  let s := { s with alg := { s.alg with evalcount := s.alg.evalcount + 1 } }
  ((s.submitEval (env.toOrig job.pt) job.pt false job.tag).pushTemp job.pt
    (min (max (val : EVal) s.alg.fmin) s.alg.fmax) false).fate job.id .repeated

/-- The results of a finished evaluation: value and error interval (the latter is only bound for noisy
evaluations, rbfopt_algorithm.py:1292-1296). -/
def jobResult (pe : PEnv O) (job : EvalJob) : ℚ × ℚ × ℚ :=
  if job.noisy then pe.noisyRes job.id else (pe.acc job.id, 0, 0)

/-- rbfopt_algorithm.py:1289-1301: take entry `j`, which is `job`, from the list of evaluations and
from the temporary nodes. -/
def takeJob (pe : PEnv O) (s : PState O) (j : ℕ) (job : EvalJob) : PState O :=
  ({ s with evals := s.evals.eraseIdx j, iid := some job.tag
            err := if job.noisy then some ((jobResult pe job).2.1, (jobResult pe job).2.2) else s.err
            } : PState O).popTemp j

/-- rbfopt_algorithm.py:1289-1371: one pass of the loop over finished evaluations, for the entry `j`
of `res_eval`. -/
def collectJob (P : Params) (env : Env O) (pe : PEnv O) (s : PState O) (j : ℕ) :
    Except PyErr (PState O) :=
  match s.evals[j]? with
  | none => .error .indexError
  | some job =>
    let r := jobResult pe job
    let s := takeJob pe s j job
    match getMinDistance env.dist job.pt s.alg.cur.pos with
    | none => .error .assertionError
    | some d =>
      if d ≤ P.minDist then .ok (s.fate job.id .skipped)
      else if job.noisy = true ∧ job.pt ∈ s.tabu then
        match getMinDistanceAndIndex env.dist job.pt s.tabu with
        | none => .error .assertionError
        | some (_, i) => .ok ({ s with tabu := s.tabu.eraseIdx i }.fate job.id .skipped)
      else if job.noisy = true ∧ requireAccurate P s.alg (r.1 + r.2.1) = true then
        mainUpdates P (collectRepeat env s job r.1)
      else
        match collectRecord P env s job r.1 r.2.1 r.2.2 with
        | .error e => .error e
        | .ok s => mainUpdates P s

/-- rbfopt_algorithm.py:1386-1411: a local search may ask to re-evaluate a node, which is removed from
the records (or put on the tabu list). -/
def harvestLocal (s : PState O) (res : SearchRes) : Except PyErr (PState O) :=
  match res.ind, res.next with
  | some i, some p =>
    if s.alg.cur.pos[i]? = some p then
      match removeNode s.alg i s.alg.nAtRestart with
      | .error e => .error e
      | .ok a => .ok { s with alg := a }
    else
      match s.alg.cur.pos.findIdx? (· == p) with
      | some k =>
        match removeNode s.alg k s.alg.nAtRestart with
        | .error e => .error e
        | .ok a => .ok { s with alg := a, tabu := s.tabu ++ [p] }
      | none => .ok { s with tabu := s.tabu ++ [p] }
  | _, _ => .ok s

/-- rbfopt_algorithm.py:1434-1443: the point is discarded.  The deque has length
`discarded_window_size * num_cpus`, which is `P.discWindow` here. -/
def harvestDiscard (P : Params) (s : PState O) (tag : Tag) : PState O :=
  let s := if tag = .ref then
      { s with refCount := s.refCount + 1, refBusy := false, alg := { s.alg with numCons := 0 } }
    else s
  { s with alg := { s.alg with discarded := dequePush P.discWindow s.alg.discarded true
                               itercount := s.alg.itercount + 1 } }

/-- rbfopt_algorithm.py:1451-1463: nearest old record, if within `eps_zero` and usable. -/
def reusePar (P : Params) (env : Env O) (s : Alg O) (orig : Pt) (noisy : Bool) :
    Option (Bool × ℚ) :=
  match reuseIndex P env s orig with
  | none => none
  | some i =>
    match s.all.noisy[i]?, s.all.val[i]? with
    | some b, some v => if noisy = true ∨ b = false then some (b, v) else none
    | _, _ => none

/-- rbfopt_algorithm.py:1464-1484: record the reused value.  `err_l, err_u` and `iid` are those of the
last finished evaluation, if there was one. -/
def harvestReuse (P : Params) (s : PState O) (p orig : Pt) (b : Bool) (v : ℚ) :
    Except PyErr (PState O) :=
  match (if b then s.err.map (fun e => addNoisyNode s.alg p orig v e.1 e.2)
         else some (addNode s.alg p orig v)) with
  | none => .error .nameError
  | some a =>
    match currentGap P a with
    | .error e => .error e
    | .ok gap =>
      match s.iid with
      | none => .error .nameError
      | some _ => mainUpdates P { s with alg := updateLog a v gap, gap := gap }

/-- rbfopt_algorithm.py:1485-1499: submit the point for evaluation. -/
def harvestSubmit (P : Params) (pe : PEnv O) (s : PState O) (p orig : Pt) (noisy : Bool) (tag : Tag) :
    PState O :=
  let s1 := { s with alg :=
    { s.alg with evalcount := s.alg.evalcount + (if noisy then 0 else 1)
                 noisyEvalcount := s.alg.noisyEvalcount + (if noisy then 1 else 0)
                 discarded := dequePush P.discWindow s.alg.discarded false } }
  (s1.submitEval orig p noisy tag).pushTemp p (pe.tempVal s1.alg p) noisy

/-- Tag after a search has finished (rbfopt_algorithm.py:1412-1415). -/
def harvestTag (tag : Tag) (res : SearchRes) : Tag :=
  if tag = .loc then (if res.adj then .adj else .loc) else tag

/-- Is the point usable (rbfopt_algorithm.py:1426-1432)?  `none`: the assertion in
`get_min_distance()` fails. -/
def harvestUsable (P : Params) (env : Env O) (s : PState O) (p : Pt) : Option Bool :=
  match getMinDistance env.dist p s.alg.cur.pos with
  | none => none
  | some d =>
    if d ≤ P.minDist then some false
    else
      match getMinDistance env.dist p s.tPos with
      | none => some true
      | some d' => some (decide (P.minDist < d'))

/-- rbfopt_algorithm.py:1380-1499: one pass of the loop over finished searches, for the entry `j` of
`res_search` with result `res`. -/
def harvestJob (P : Params) (env : Env O) (pe : PEnv O) (s : PState O) (j : ℕ) (res : SearchRes) :
    Except PyErr (PState O) :=
  match s.searches[j]? with
  | none => .error .indexError
  | some job =>
    let s := { s with searches := s.searches.eraseIdx j
                      refData := if job.tag = .ref then (res.modelImpr, res.toReplace)
                        else s.refData }
    match (if job.tag = .loc then harvestLocal s res else .ok s) with
    | .error e => .error e
    | .ok s =>
      match res.next with
      | none => .ok (harvestDiscard P s job.tag)
      | some p0 =>
        let p := clipPt p0 P.lLower P.lUpper
        match harvestUsable P env s p with
        | none => .error .assertionError
        | some false => .ok (harvestDiscard P s job.tag)
        | some true =>
          let orig := env.toOrig p
          match reusePar P env s.alg orig job.noisy with
          | some (b, v) => harvestReuse P s p orig b v
          | none => .ok (harvestSubmit P pe s p orig job.noisy (harvestTag job.tag res))

/-! ## Restarting -/

/-- rbfopt_algorithm.py:1869-1876, 1911-1917: submit the initial points.  The points are in the
original space, unlike those submitted by the searches. -/
def submitInit (s : PState O) (noisy : Bool) : List Pt → PState O
  | [] => s
  | p :: ps => submitInit (s.submitEval p p noisy .init) noisy ps

/-- rbfopt_algorithm.py:1888-1892, 1929-1933: the results collected while waiting, in the order in
which they are popped (`sel` are the successive indices), and the remaining entries. -/
def popJobs : List EvalJob → List ℕ → Option (List EvalJob × List EvalJob)
  | rest, [] => some ([], rest)
  | js, j :: sel =>
    match js[j]? with
    | none => none
    | some x =>
      match popJobs (js.eraseIdx j) sel with
      | none => none
      | some (done, rest) => some (x :: done, rest)

/-- rbfopt_algorithm.py:1894-1902, 1935-1946: the table of collected initial evaluations.  All are
flagged according to the evaluation mode. -/
def initTable (pe : PEnv O) (noisyMode : Bool) (done : List EvalJob) : Table :=
  { pos := done.map (fun x => x.pt), val := done.map (fun x => (jobResult pe x).1)
    noisy := done.map (fun _ => noisyMode)
    err := done.map (fun x => ((jobResult pe x).2.1, (jobResult pe x).2.2)) }

/-- How many results `restart` waits for (rbfopt_algorithm.py:1880-1882, 1921-1923), if it samples at
all (1844-1846). -/
def initNeed (P : Params) (pe : PEnv O) (a : Alg O) (prev : ℕ) : ℕ :=
  if a.itercount > 0 ∨ P.doInit = true then pe.minInit - prev else 0

/-- rbfopt_algorithm.py:1838-1917: everything before waiting.  Returns the state with the submitted
evaluations and the reused records. -/
def restartBegin (P : Params) (env : Env O) (s : PState O) : Except PyErr (PState O × Table) :=
  let a := { s.alg with
    numNoisyRestarts := s.alg.numNoisyRestarts + (if s.alg.mode = .noisy then 1 else 0)
    nAtRestart := s.alg.all.pos.length }
  if a.itercount > 0 ∨ P.doInit = true then
    match env.initNodes a with
    | .error e => .error e
    | .ok (nodePos, o) =>
      let a := { a with opq := o }
      match removeExistingIf P env a nodePos with
      | none => .error .indexError
      | some r =>
        let noisy := !restartAccurate P a
        let a := { a with
          evalcount := a.evalcount + (if noisy then 0 else r.pos.length)
          noisyEvalcount := a.noisyEvalcount + (if noisy then r.pos.length else 0) }
        .ok (submitInit { s with alg := a, evals := [] } noisy r.pos, r.prev)
  else .ok ({ s with alg := a, evals := [] }, {})

/-- Ghost: all these jobs were recorded. -/
def PState.fates (s : PState O) (done : List EvalJob) : PState O :=
  { s with hist := s.hist ++ done.map (fun x => (x.id, Fate.recorded)) }

/-- rbfopt_algorithm.py:1894-2045, and the re-creation of the temporary nodes by the caller
(1253-1266, 1539-1552, 1692-1705). -/
def restartEnd (P : Params) (env : Env O) (pe : PEnv O) (s : PState O) (prev : Table)
    (done rest : List EvalJob) : Except PyErr (PState O) :=
  let t := (initTable pe (decide (s.alg.mode = .noisy)) done).append prev
  match restartUser P env t s.alg with
  | .error e => .error e
  | .ok (t, a) =>
    match restartInstall P env t a with
    | .error e => .error e
    | .ok a =>
      .ok (({ s with alg := a, evals := rest, tPos := rest.map (fun x : EvalJob => x.pt)
                     tVal := rest.map (fun x : EvalJob => pe.tempVal a x.pt)
                     tNoisy := rest.map (fun x : EvalJob => x.noisy)
                     tabu := [], left := rest.length, cut := false } : PState O).fates done)

/-- `restart(pool, remaining_eval)`, where `sel` describes which results arrive while waiting: none if
none are needed, otherwise at least as many as needed. -/
inductive RestartPar (P : Params) (env : Env O) (pe : PEnv O) (s : PState O) :
    Except PyErr (PState O) → Prop
  | failed {e : PyErr} : restartBegin P env s = .error e → RestartPar P env pe s (.error e)
  | ends {s1 : PState O} {prev : Table} {sel : List ℕ} {done rest : List EvalJob} :
      restartBegin P env s = .ok (s1, prev) → popJobs s1.evals sel = some (done, rest) →
      initNeed P pe s.alg prev.pos.length ≤ sel.length → (initNeed P pe s.alg prev.pos.length = 0 → sel = []) →
      RestartPar P env pe s (restartEnd P env pe s1 prev done rest)

/-! ## The main loop -/

/-- rbfopt_algorithm.py:1714-1751: one refinement step is submitted, or skipped if the linear model
cannot be built. -/
def submitRefine (P : Params) (env : Env O) (s : PState O) (reinit : Bool) (rankDef : Bool) :
    Except PyErr (PState O) :=
  match (if s.alg.numCons = 0 ∨ reinit = true then
      initRefIfNeeded env { s.alg with numCons := 0 } else .ok s.alg) with
  | .error e => .error e
  | .ok a =>
    let a := { a with numCons := s.alg.numCons }
    let (f, o) := env.linFails a
    let a := { a with opq := o }
    if f then .ok { s with alg := advanceStep P a }
    else .ok (({ s with alg := a, rankDef := rankDef, refBusy := true } : PState O).submitSearch
                (decide (a.mode = Mode.noisy)) .ref)

/-- rbfopt_algorithm.py:1708-1784: submit a search.  `reinit` is the outcome of the comparison of
`fmin` with the value of the refinement iterate (1718-1721). -/
def submitNext (P : Params) (env : Env O) (s : PState O) (reinit rankDef : Bool) :
    Except PyErr (PState O) :=
  if s.refBusy = false ∧ s.refCount ≤ (s.alg.itercount : ℚ) / P.refFreq then
    submitRefine P env s reinit rankDef
  else
    let tag := if s.alg.step = P.infStep then Tag.inf
      else if s.alg.step = P.localStep then Tag.loc else Tag.glob
    let s := s.submitSearch (decide (s.alg.mode = .noisy)) tag
    .ok { s with alg := advanceStep P s.alg }

/-- rbfopt_algorithm.py:1787-1806: add one outstanding evaluation after the workers have finished.
The result of a noisy evaluation is a triple, which is used as a value: comparing it with a number
raises an exception (line 636/682), unless `err_l` was unbound, which raises before. -/
def closeJob (P : Params) (env : Env O) (pe : PEnv O) (s : PState O) (job : EvalJob) :
    Except PyErr (PState O) :=
  match getMinDistance env.dist job.pt s.alg.cur.pos with
  | none => .error .assertionError
  | some _ =>
    if job.noisy then
      match s.err with
      | none => .error .nameError
      | some _ => .error .typeError
    else
      let v := pe.acc job.id
      let a := addNode s.alg job.pt (env.toOrig job.pt) v
      match currentGap P a with
      | .error e => .error e
      | .ok gap =>
        let a := updateLog a v gap
        .ok ({ s with alg := { a with itercount := a.itercount + 1 }, gap := gap
                      evals := s.evals.tail }.fate job.id .recorded)

/-- Condition of the main loop (rbfopt_algorithm.py:1278-1284), as in the serial engine. -/
def parCond (P : Params) (env : Env O) (start pause : ℕ) (s : PState O) : Bool :=
  loopCond P env start pause s.alg { gap := s.gap, err := none }

/-- `if (len(res_eval) + len(res_search) >= num_cpus)` (rbfopt_algorithm.py:1503). -/
def parFull (pe : PEnv O) (s : PState O) : Bool :=
  decide (pe.numCpus ≤ s.evals.length + s.searches.length)

/-- Are results outstanding (rbfopt_algorithm.py:1532, 1681)? -/
def parBusy (s : PState O) : Bool := decide (s.evals ≠ [] ∨ s.searches ≠ [])

/-- The step is switched off (rbfopt_algorithm.py:1512-1515). -/
def parSkip (P : Params) (s : PState O) : Bool :=
  decide ((s.alg.step = P.infStep ∧ P.doInf = false) ∨ (s.alg.step = P.localStep ∧ P.doLocal = false))

/-- The next state after an action that may raise. -/
def PState.orRaise (s : PState O) (pc : PC) : Except PyErr (PState O) → PState O
  | .error e => { s with pc := .raised e }
  | .ok s' => { s' with pc := pc }

/-- One step of `optimize_parallel`. -/
inductive PStep (P : Params) (env : Env O) (pe : PEnv O) (start pause : ℕ) :
    PState O → PState O → Prop
  /-- the condition of the main loop holds -/
  | enter {s : PState O} : s.pc = .top → parCond P env start pause s = true →
      PStep P env pe start pause s { s with pc := .evals s.alg.itercount }
  /-- the condition fails: `pool.close(); pool.join()` -/
  | leave {s : PState O} : s.pc = .top → parCond P env start pause s = false →
      PStep P env pe start pause s { s with pc := .closing s.evals }
  /-- an evaluation has finished -/
  | collect {s : PState O} {b : ℕ} (j : ℕ) : s.pc = .evals b → j < s.evals.length →
      PStep P env pe start pause s (s.orRaise (.evals b) (collectJob P env pe s j))
  /-- no (more) finished evaluations -/
  | evalsDone {s : PState O} {b : ℕ} : s.pc = .evals b →
      PStep P env pe start pause s
        { s with pc := if b < s.alg.itercount then .top else .searches }
  /-- a search has finished; `local_step` only asks for a re-evaluation in two-phase optimization, and only if the mode was accurate when it was submitted
  (rbfopt_algorithm.py:2607-2608) -/
  | harvest {s : PState O} (j : ℕ) (res : SearchRes) : s.pc = .searches → j < s.searches.length →
      (P.twoPhase = false ∨ s.searches[j]?.map SearchJob.noisy = some true → res.ind = none) → (∀ p, res.next = some p → pe.proposes p) →
      PStep P env pe start pause s (s.orRaise .searches (harvestJob P env pe s j res))
  | searchesDone {s : PState O} : s.pc = .searches →
      PStep P env pe start pause s { s with pc := .submit }
  /-- no worker is free -/
  | full {s : PState O} : s.pc = .submit → parFull pe s = true →
      PStep P env pe start pause s { s with pc := .top }
  | skip {s : PState O} : s.pc = .submit → parFull pe s = false → parSkip P s = true →
      PStep P env pe start pause s { s with alg := advanceStep P s.alg, pc := .top }
  /-- a restart is due, but results are outstanding: wait -/
  | waitRestart {s : PState O} : s.pc = .submit → parFull pe s = false → parSkip P s = false →
      shouldRestart P s.alg = true → parBusy s = true →
      PStep P env pe start pause s { s with pc := .top }
  | restart {s : PState O} {r : Except PyErr (PState O)} : s.pc = .submit → parFull pe s = false →
      parSkip P s = false → shouldRestart P s.alg = true → parBusy s = false →
      RestartPar P env pe s r → PStep P env pe start pause s (s.orRaise .model r)
  | noRestart {s : PState O} : s.pc = .submit → parFull pe s = false → parSkip P s = false →
      shouldRestart P s.alg = false → PStep P env pe start pause s { s with pc := .model }
  /-- auto-scaling, model selection etc. raise an exception -/
  | prepFails {s : PState O} {e : PyErr} : s.pc = .model → env.prep s.alg = .error e →
      PStep P env pe start pause s { s with pc := .raised e }
  /-- the interpolation system is singular: try the underdetermined one next time
  (rbfopt_algorithm.py:1657-1661) -/
  | underdetermined {s : PState O} {o o' : O} : s.pc = .model → env.prep s.alg = .ok o →
      env.modelFails { s.alg with opq := o } = (true, o') →
      P.n + 1 ≤ s.alg.cur.pos.length + s.tPos.length → s.alg.solveUnder = false →
      PStep P env pe start pause s
        { s with alg := { s.alg with opq := o', solveUnder := true }, pc := .top }
  /-- the failure is to be noted in a list of models that is empty (1663-1667) -/
  | noList {s : PState O} {o o' : O} : s.pc = .model → env.prep s.alg = .ok o →
      env.modelFails { s.alg with opq := o } = (true, o') →
      ¬ (P.n + 1 ≤ s.alg.cur.pos.length + s.tPos.length ∧ s.alg.solveUnder = false) →
      pe.noCvList s.alg = true → PStep P env pe start pause s { s with pc := .raised .indexError }
  /-- restoration is necessary, but results are outstanding: wait (1679-1684) -/
  | waitRestoration {s : PState O} {o o' : O} {f : Bool} : s.pc = .model → env.prep s.alg = .ok o →
      env.modelFails { s.alg with opq := o } = (f, o') →
      (f = true ∧ ¬ (P.n + 1 ≤ s.alg.cur.pos.length + s.tPos.length ∧ s.alg.solveUnder = false) ∧
        pe.noCvList s.alg = false) ∨ (f = false ∧ s.alg.step = P.restorationStep) →
      parBusy s = true →
      PStep P env pe start pause s
        { s with alg := { s.alg with opq := o', step := P.restorationStep }, pc := .top }
  /-- restoration is always a restart (1685-1706) -/
  | restoration {s : PState O} {o o' : O} {f : Bool} {r : Except PyErr (PState O)} : s.pc = .model →
      env.prep s.alg = .ok o → env.modelFails { s.alg with opq := o } = (f, o') →
      (f = true ∧ ¬ (P.n + 1 ≤ s.alg.cur.pos.length + s.tPos.length ∧ s.alg.solveUnder = false) ∧
        pe.noCvList s.alg = false) ∨ (f = false ∧ s.alg.step = P.restorationStep) →
      parBusy s = false →
      RestartPar P env pe { s with alg := { s.alg with opq := o', step := P.restorationStep
                                                       solveUnder := false } } r →
      PStep P env pe start pause s (s.orRaise .top r)
  /-- a search is submitted -/
  | submit {s : PState O} {o o' : O} (reinit rankDef : Bool) : s.pc = .model →
      env.prep s.alg = .ok o → env.modelFails { s.alg with opq := o } = (false, o') →
      s.alg.step ≠ P.restorationStep →
      PStep P env pe start pause s (s.orRaise .top
        (submitNext P env { s with alg := { s.alg with opq := o' } } reinit rankDef))
  /-- an outstanding evaluation is added after the end of the main loop -/
  | close {s : PState O} {job : EvalJob} {todo : List EvalJob} : s.pc = .closing (job :: todo) →
      PStep P env pe start pause s (s.orRaise (.closing todo) (closeJob P env pe s job))
  | finish {s : PState O} : s.pc = .closing [] →
      PStep P env pe start pause s { s with pc := .done }

/-- The local variables of a new call; the ghost history is kept. -/
def PState.fresh (s : PState O) : PState O :=
  { alg := s.alg, subs := s.subs, hist := s.hist, cut := s.cut }

/-- A call of `optimize()` that ended abruptly: the pool is abandoned with it, so that the results of
all outstanding evaluations and searches are lost. -/
def PState.lose (s : PState O) : PState O :=
  { s.fresh with hist := s.hist ++ s.evals.map (fun x => (x.id, Fate.lost)) }

/-- `restart(pool, remaining_eval)` ends with an exception: `initialize_nodes` fails
(rbfopt_algorithm.py:1846-1850), or `res.get()` re-raises the exception of a worker while the results
of the sample are awaited (1880-1892, 1921-1933), or `pool.map` re-raises the exception of a worker
that evaluates the user's points (1977-1980).  Then the whole sample, which has already been
counted, is lost, including the results collected before.  Evaluations of the user's points made by
`pool.map` before the exception leave no trace in the object (they are not counted either);
simplification: they are not in the ghost list of calls. -/
inductive RestartParCut (P : Params) (env : Env O) (pe : PEnv O) (s : PState O) : PState O → Prop
  | noSample {e : PyErr} : s.alg.itercount > 0 ∨ P.doInit = true →
      env.initNodes (restartEnter s.alg) = .error e →
      RestartParCut P env pe s { s with alg := restartEnter s.alg, evals := [], cut := true }
  | worker {s1 : PState O} {prev : Table} : restartBegin P env s = .ok (s1, prev) → s1.evals ≠ [] →
      0 < initNeed P pe s.alg prev.pos.length → RestartParCut P env pe s { s1 with cut := true }
  | user {s1 : PState O} {prev : Table} : restartBegin P env s = .ok (s1, prev) →
      s.alg.itercount = 0 → P.initVal.length < P.initPos.length →
      RestartParCut P env pe s { s1 with cut := true }

/-- A call of `optimize_parallel` is ended in its main loop by an exception of the black box in a
worker or of `initialize_nodes`. -/
inductive PCut (P : Params) (env : Env O) (pe : PEnv O) (s : PState O) : PState O → Prop
  /-- `res.get()` in the loop over finished evaluations (rbfopt_algorithm.py:1292-1296); the state of
  the object has not changed -/
  | eval {b : ℕ} : s.pc = .evals b → s.evals ≠ [] → PCut P env pe s s
  /-- `res.get()` in the loop over finished searches (1386, 1417-1424) -/
  | search : s.pc = .searches → s.searches ≠ [] → PCut P env pe s s
  /-- `res.get()` after the main loop (1789) -/
  | close {job : EvalJob} {todo : List EvalJob} : s.pc = .closing (job :: todo) → PCut P env pe s s
  /-- the restart at line 1536 -/
  | restart {t : PState O} : s.pc = .submit → parFull pe s = false → parSkip P s = false →
      shouldRestart P s.alg = true → parBusy s = false → RestartParCut P env pe s t →
      PCut P env pe s t
  /-- the restart at line 1689 -/
  | restoration {o o' : O} {f : Bool} {t : PState O} : s.pc = .model → env.prep s.alg = .ok o →
      env.modelFails { s.alg with opq := o } = (f, o') →
      (f = true ∧ ¬ (P.n + 1 ≤ s.alg.cur.pos.length + s.tPos.length ∧ s.alg.solveUnder = false) ∧
        pe.noCvList s.alg = false) ∨ (f = false ∧ s.alg.step = P.restorationStep) →
      parBusy s = false →
      RestartParCut P env pe { s with alg := { s.alg with opq := o', step := P.restorationStep
                                                          solveUnder := false } } t →
      PCut P env pe s t

/-- The gap after the initialization (rbfopt_algorithm.py:1271-1272). -/
def withGap (P : Params) (s : PState O) : PState O :=
  match currentGap P s.alg with
  | .error e => { s with pc := .raised e }
  | .ok gap => { s with gap := gap, pc := .top }

/-- Start of `optimize_parallel` (rbfopt_algorithm.py:1210-1276), from the state `s0` in which the
previous call ended. -/
inductive PStart (P : Params) (env : Env O) (pe : PEnv O) (s0 : PState O) : PState O → Prop
  | zeroFrequency : P.refFreq = 0 →
      PStart P env pe s0 { s0.fresh with pc := .raised .zeroDivisionError }
  | firstFails {e : PyErr} : P.refFreq ≠ 0 → s0.alg.itercount = 0 →
      RestartPar P env pe s0.fresh (.error e) →
      PStart P env pe s0 { s0.fresh with pc := .raised e }
  | first {s : PState O} : P.refFreq ≠ 0 → s0.alg.itercount = 0 →
      RestartPar P env pe s0.fresh (.ok s) → PStart P env pe s0 (withGap P s)
  | resumed : P.refFreq ≠ 0 → s0.alg.itercount ≠ 0 →
      PStart P env pe s0
        (withGap P { s0.fresh with refCount := (s0.alg.itercount : ℚ) / P.refFreq })

end Rbfopt
