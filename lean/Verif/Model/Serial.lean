import Verif.Model.State

/-!
# The serial optimization engine

rbfopt_algorithm.py: `add_node`, `add_noisy_node`, `remove_node`, `restart` (with `pool=None`),
`remove_existing_nodes`, `restoration_search`, `phase_update`, `refinement_update`,
`advance_step_counter`, `stalling_update`, `require_accurate_evaluation`,
`optimize_serial`, `optimize`.
-/

namespace Rbfopt

variable {O : Type}

/-- rbfopt_utils.py:1613-1640 `compute_gap`, on a finite value. -/
def computeGapQ (P : Params) (f : ℚ) : ℚ :=
  let den := if |P.target| ≥ P.epsZero then |P.target| else 1
  (f - P.target) / den

/-- rbfopt_utils.py:1613-1640 `compute_gap`; `+inf` gives `+inf`. Simplification: division by a
zero denominator (only possible for `target = 0` and `eps_zero = 0`) is `ZeroDivisionError` in
Python and 0 here; the theorems on gaps assume `eps_zero > 0`. -/
def computeGap (P : Params) (f : EVal) : EVal := f.map (computeGapQ P)

/-- `objfun` (rbfopt_algorithm.py:2905-2952): decode the point, call `evaluate`. -/
def objfun (env : Env O) (s : Alg O) (p : Pt) : ℚ × Alg O :=
  let x := env.decode p
  let v := env.evalAcc s.log x
  (v, { s with log := s.log ++ [.acc x v] })

/-- `objfun_noisy` (rbfopt_algorithm.py:2955-3003). -/
def objfunNoisy (env : Env O) (s : Alg O) (p : Pt) : (ℚ × ℚ × ℚ) × Alg O :=
  let x := env.decode p
  let r := env.evalNoisy s.log x
  (r, { s with log := s.log ++ [.noisy x r.1 r.2.1 r.2.2] })

/-- `np.array([objfun(...) for point in node_pos])` (rbfopt_algorithm.py:1865-1868, 1983-1986). -/
def evalList (env : Env O) (s : Alg O) : List Pt → List ℚ × Alg O
  | [] => ([], s)
  | p :: ps =>
    let (v, s1) := objfun env s p
    let (vs, s2) := evalList env s1 ps
    (v :: vs, s2)

/-- `np.array([objfun_noisy(...) for point in node_pos])` (rbfopt_algorithm.py:1905-1908). -/
def evalNoisyList (env : Env O) (s : Alg O) : List Pt → List (ℚ × ℚ × ℚ) × Alg O
  | [] => ([], s)
  | p :: ps =>
    let (v, s1) := objfunNoisy env s p
    let (vs, s2) := evalNoisyList env s1 ps
    (v :: vs, s2)

/-- rbfopt_algorithm.py:498-540 `update_log` with an objective value: only the star logic
(lines 535-539) has an effect on the state. -/
def updateLog (s : Alg O) (obj : ℚ) (gap : EVal) : Alg O :=
  if gap < s.bestGapShown ∧ (obj : EVal) = s.fbest then
    { s with bestGapShown := gap, stars := s.stars ++ [(gap, obj, s.fbest)] }
  else s

/-- rbfopt_algorithm.py:603-642 `add_node`. -/
def addNode (s : Alg O) (point orig : Pt) (value : ℚ) : Alg O :=
  let s := { s with
    cur := { pos := s.cur.pos ++ [point], err := s.cur.err ++ [(0, 0)],
             val := s.cur.val ++ [value], noisy := s.cur.noisy ++ [false] }
    all := { pos := s.all.pos ++ [orig], err := s.all.err ++ [(0, 0)],
             val := s.all.val ++ [value], noisy := s.all.noisy ++ [false] }
    fmax := max s.fmax (value : EVal) }
  let s := if (value : EVal) < s.fmin then
      { s with fminIdx := s.cur.pos.length - 1, fmin := value, isFminNoisy := false } else s
  if (value : EVal) < s.fbest then
    { s with fbestIdx := s.all.pos.length - 1, fbest := value, isFbestNoisy := false } else s

/-- rbfopt_algorithm.py:644-690 `add_noisy_node`. -/
def addNoisyNode (s : Alg O) (point orig : Pt) (value el eu : ℚ) : Alg O :=
  let s := { s with
    cur := { pos := s.cur.pos ++ [point], err := s.cur.err ++ [(el, eu)],
             val := s.cur.val ++ [value], noisy := s.cur.noisy ++ [true] }
    all := { pos := s.all.pos ++ [orig], err := s.all.err ++ [(el, eu)],
             val := s.all.val ++ [value], noisy := s.all.noisy ++ [true] }
    fmax := max s.fmax (value : EVal) }
  let s := if (value : EVal) < s.fmin then
      { s with fminIdx := s.cur.pos.length - 1, fmin := value, isFminNoisy := true } else s
  if (value : EVal) < s.fbest then
    { s with fbestIdx := s.all.pos.length - 1, fbest := value, isFbestNoisy := true } else s

/-- `np.delete` of one index in each of the four arrays of a table. -/
def Table.eraseIdx (t : Table) (i : ℕ) : Table :=
  { pos := t.pos.eraseIdx i, val := t.val.eraseIdx i, noisy := t.noisy.eraseIdx i,
    err := t.err.eraseIdx i }

/-- rbfopt_algorithm.py:569-601 `remove_node`.  `np.delete` raises `IndexError` when the index is
out of range.  Note that `fmin`, `fbest` and their indices are not updated. -/
def removeNode (s : Alg O) (index shift : ℕ) : Except PyErr (Alg O) :=
  if index < s.cur.pos.length ∧ shift + index < s.all.pos.length then
    .ok { s with cur := s.cur.eraseIdx index, all := s.all.eraseIdx (shift + index)
                 nInit := if index < s.nInit then s.nInit - 1 else s.nInit }
  else .error .indexError

/-- rbfopt_algorithm.py:2326-2338 `advance_step_counter`. -/
def advanceStep (P : Params) (s : Alg O) : Alg O :=
  { s with
    cyc := if s.step > (s.step + 1) % P.cycleLength then s.cyc + 1 else s.cyc
    step := (s.step + 1) % P.cycleLength }

/-- One pass of the loop of `remove_existing_nodes` (rbfopt_algorithm.py:2081-2093). -/
structure Removal where
  pos : List Pt
  prev : Table

/-- rbfopt_algorithm.py:2081-2093: the loop over the indices (largest first). -/
def removeExistingLoop (env : Env O) (s : Alg O) : List ℕ → Removal → Option Removal
  | [], r => some r
  | i :: is, r =>
    match r.pos[i]? with
    | none => none
    | some p =>
      match getMinDistanceAndIndex env.dist p (s.all.pos.take s.nAtRestart) with
      | none => none
      | some (_, j) =>
        match s.all.pos[j]?, s.all.val[j]?, s.all.noisy[j]?, s.all.err[j]? with
        | some q, some v, some b, some e =>
          if s.mode = .noisy ∨ b = false then
            removeExistingLoop env s is
              { pos := r.pos.eraseIdx i
                prev := r.prev.append { pos := [q], val := [v], noisy := [b], err := [e] } }
          else removeExistingLoop env s is r
        | _, _, _, _ => none

/-- Indices `np.where(dist <= eps_zero)[0]`, reversed (rbfopt_algorithm.py:2074-2081). -/
def existingIndices (P : Params) (env : Env O) (s : Alg O) (nodePos : List Pt) : List ℕ :=
  ((List.range nodePos.length).filter (fun i =>
    match nodePos[i]? with
    | none => false
    | some p =>
      match getMinDistance env.dist p (s.all.pos.take s.nAtRestart) with
      | none => false
      | some d => decide (d ≤ P.epsZero))).reverse

/-- rbfopt_algorithm.py:2047-2096 `remove_existing_nodes`.  `none` models an `IndexError`
(shown unreachable). -/
def removeExisting (P : Params) (env : Env O) (s : Alg O) (nodePos : List Pt) : Option Removal :=
  removeExistingLoop env s (existingIndices P env s nodePos) { pos := nodePos, prev := {} }

/-- rbfopt_algorithm.py:1851-1858: only look for old records if there are any. -/
def removeExistingIf (P : Params) (env : Env O) (s : Alg O) (nodePos : List Pt) : Option Removal :=
  if s.nAtRestart > 0 then removeExisting P env s nodePos
  else some { pos := nodePos, prev := {} }

/-- `all_node_err_bounds[fbest_index, 1]` added to `fbest`, then `compute_gap`
(rbfopt_algorithm.py:845-846, 1149-1151, 2035-2036). -/
def currentGap (P : Params) (s : Alg O) : Except PyErr EVal :=
  match s.all.err[s.fbestIdx]? with
  | none => .error .indexError
  | some e => .ok (computeGap P (s.fbest + (e.2 : EVal)))

/-- Condition for accurate evaluation of the sample in `restart` (rbfopt_algorithm.py:1860-1863). -/
def restartAccurate (P : Params) (s : Alg O) : Bool :=
  s.mode = .accurate ∨ s.numNoisyRestarts > P.maxNoisyRestarts ∨
    s.noisyEvalcount + P.n + 1 ≥ P.maxNoisyEval

/-- rbfopt_algorithm.py:1846-1961: the new sample with its evaluation. -/
def restartSample (P : Params) (env : Env O) (s : Alg O) : Except PyErr (Table × Alg O) :=
  if s.itercount > 0 ∨ P.doInit = true then
    match env.initNodes s with
    | .error e => .error e
    | .ok (nodePos, o) =>
      let s := { s with opq := o }
      match removeExistingIf P env s nodePos with
      | none => .error .indexError
      | some r =>
        if restartAccurate P s then
          let (vals, s1) := evalList env s r.pos
          let s2 := { s1 with evalcount := s1.evalcount + vals.length }
          let t : Table := { pos := r.pos, val := vals
                             noisy := vals.map (fun _ => decide (s.mode = .noisy))
                             err := vals.map (fun _ => (0, 0)) }
          .ok (t.append r.prev, s2)
        else
          -- `val[:, 0]` on an empty one-dimensional array raises IndexError (line 1942)
          if r.pos = [] then .error .indexError
          else
            let (res, s1) := evalNoisyList env s r.pos
            let s2 := { s1 with noisyEvalcount := s1.noisyEvalcount + res.length }
            let t : Table := { pos := r.pos, val := res.map (fun x => x.1)
                               noisy := res.map (fun _ => decide (s.mode = .noisy))
                               err := res.map (fun x => (x.2.1, x.2.2)) }
            .ok (t.append r.prev, s2)
  else .ok ({}, s)

/-- Which user-provided points are kept (rbfopt_algorithm.py:1966-1978): distance from all earlier
user points (kept or not) and from the sampled points. -/
def selectUser (P : Params) (env : Env O) (sample : List Pt) : List ℕ :=
  (List.range P.initPos.length).filter (fun i =>
    match P.initPos[i]? with
    | none => false
    | some p =>
      (match getMinDistance env.dist p (P.initPos.take i) with
       | none => true
       | some d => decide (d > P.minDist)) &&
      (match getMinDistance env.dist p sample with
       | none => true
       | some d => decide (d > P.minDist)))

/-- rbfopt_algorithm.py:1962-2001: user-provided points, evaluated unless enough values are
given. -/
def restartUser (P : Params) (env : Env O) (t : Table) (s : Alg O) : Except PyErr (Table × Alg O) :=
  if P.initPos ≠ [] ∧ s.itercount = 0 then
    let sel := selectUser P env t.pos
    let pts := sel.filterMap (fun i => P.initPos[i]?)
    if P.initVal.length < P.initPos.length then
      let (vals, s1) := evalList env s pts
      let s2 := { s1 with evalcount := s1.evalcount + vals.length }
      .ok (t.append { pos := pts, val := vals, noisy := vals.map (fun _ => false)
                      err := vals.map (fun _ => (0, 0)) }, s2)
    else
      let vals := sel.filterMap (fun i => P.initVal[i]?)
      .ok (t.append { pos := pts, val := vals, noisy := vals.map (fun _ => false)
                      err := vals.map (fun _ => (0, 0)) }, s)
  else .ok (t, s)

/-- The log lines printed at the end of `restart` (rbfopt_algorithm.py:2040-2044). -/
def logInit (s : Alg O) (gap : EVal) : List ℚ → Alg O
  | [] => s
  | v :: vs => logInit (updateLog s v gap) gap vs

/-- rbfopt_algorithm.py:2003-2045: install the new nodes and reset the counters. -/
def restartInstall (P : Params) (env : Env O) (t : Table) (s : Alg O) : Except PyErr (Alg O) :=
  let s := { s with all := s.all.append t }
  -- `bulk_transform_domain` reads `points[0]` (rbfopt_utils.py:1854)
  if t.pos = [] then .error .indexError
  else
    match argminVal t.val, argmaxVal t.val with
    | some (m, i), some (M, _) =>
      match t.noisy[i]? with
      | none => .error .indexError
      | some b =>
        let s := { s with
          cur := { t with pos := t.pos.map env.toInternal }
          fminIdx := i, fmin := m, fmax := M, fminStall := m, fminLastRefine := m
          iterLastRefine := s.itercount, numStalled := 0, discarded := [], numCons := 0
          solveUnder := false, isFminNoisy := b, nInit := t.pos.length }
        let s := if s.fmin < s.fbest then
            { s with fbest := s.fmin, fbestIdx := s.fminIdx + s.nAtRestart, isFbestNoisy := b }
          else s
        match currentGap P s with
        | .error e => .error e
        | .ok gap =>
          let s := { s with step := P.firstStep, cyc := s.cyc + 1 }
          -- with a single node, `get_min_distance` in the printing loop fails its assertion
          if t.pos.length = 1 then .error .assertionError
          else .ok (logInit s gap t.val)
    | _, _ => .error .valueError

/-- rbfopt_algorithm.py:1809-2045 `restart` (serial: `pool=None`). -/
def restart (P : Params) (env : Env O) (s : Alg O) : Except PyErr (Alg O) :=
  let s := { s with
    numNoisyRestarts := s.numNoisyRestarts + (if s.mode = .noisy then 1 else 0)
    nAtRestart := s.all.pos.length }
  match restartSample P env s with
  | .error e => .error e
  | .ok (t, s) =>
    match restartUser P env t s with
    | .error e => .error e
    | .ok (t, s) => restartInstall P env t s

/-- The loop of `restoration_search` (rbfopt_algorithm.py:2115-2157), `fuel` bounding
`max_consecutive_restoration - cons_restoration`.  Returns the index to remove and the point. -/
def restorationLoop (P : Params) (env : Env O) (s : Alg O) : ℕ → ℕ → Option (ℕ × Pt)
  | 0, _ => none
  | fuel + 1, toRemove =>
    if (toRemove : ℚ) > P.initFrac * (P.n + 1) then
      let p := env.restCand s toRemove
      -- the candidate is appended *before* the distance is measured (lines 2140-2142)
      let nodePos := s.cur.pos.eraseIdx toRemove ++ [p]
      match getMinDistance env.dist p nodePos with
      | none => none
      | some d =>
        if d > P.minDist ∧ env.restInvertible s nodePos = true then some (toRemove, p)
        else restorationLoop P env s fuel (toRemove - 1)
    else none

/-- rbfopt_algorithm.py:2098-2162 `restoration_search`. -/
def restorationSearch (P : Params) (env : Env O) (s : Alg O) :
    Except PyErr (Option Pt × Alg O) :=
  match restorationLoop P env s P.maxConsRest (s.cur.pos.length - 1) with
  | none => .ok (none, { s with opq := env.restOpq s })
  | some (i, p) =>
    match removeNode { s with opq := env.restOpq s } i s.nAtRestart with
    | .error e => .error e
    | .ok s => .ok (some p, s)

/-- rbfopt_algorithm.py:2165-2181 `phase_update`. -/
def phaseUpdate (P : Params) (s : Alg O) : Alg O :=
  if P.twoPhase = true ∧ s.mode = .noisy ∧
      (s.numNoisyRestarts > P.maxNoisyRestarts ∨ s.itercount ≥ P.maxNoisyIter ∨
       s.noisyEvalcount ≥ P.maxNoisyEval) then
    { s with mode := .accurate }
  else s

/-- rbfopt_algorithm.py:2183-2204 `unlimited_refinement_active`.
`max_clock_time * thresh` is `⊤` if there is no clock limit (and the threshold is not 0). -/
def unlimitedRefinement (P : Params) (s : Alg O) : Bool :=
  ((s.itercount : ℚ) ≥ P.maxIter * P.threshUnl) ∨ ((s.evalcount : ℚ) ≥ P.maxEval * P.threshUnl) ∨
    ((s.elapsed : EVal) ≥ P.maxClock.map (· * P.threshUnl)) ∨
    ((s.numStalled : ℚ) ≥ P.maxStalled * P.threshUnlStalled)

/-- rbfopt_refinement.py:465-507 `update_refinement_radius`: new radius and acceptance. -/
def updateRefinementRadius (P : Params) (radius modelDiff realDiff : ℚ) : ℚ × Bool :=
  let decrease := if |modelDiff| > P.epsZero then realDiff / modelDiff else 0
  (if decrease ≤ P.refShrink then radius * (1/2)
   else if decrease ≥ P.refEnlarge then radius * 2 else radius,
   decide (decrease ≥ P.refMove))

/-- rbfopt_algorithm.py:2235-2244: accept the new iterate (state and index to replace). -/
def refAccept (env : Env O) (s : Alg O) (move : Bool) (toReplace r0 : ℕ) :
    Except PyErr (Alg O × ℕ) :=
  if move = true ∨ r0 = s.refIter then
    match s.cur.pos.getLast? with
    | none => .error .indexError
    | some c =>
      if ∀ j ∈ s.refSet, j < s.cur.pos.length then
        match getMaxDistanceAndIndex env.dist c (s.refSet.filterMap (fun j => s.cur.pos[j]?)) with
        | none => .error .assertionError
        | some (_, t) => .ok ({ s with refIter := s.cur.pos.length - 1 }, t)
      else .error .indexError
  else .ok (s, toReplace)

/-- rbfopt_algorithm.py:2245-2261: stop or continue refinement. -/
def refContinue (P : Params) (env : Env O) (s : Alg O) (toReplace : ℕ) (rankDef : Bool) :
    Except PyErr (Alg O) :=
  if s.refRadius < P.refMinRadius ∨
      (s.numCons ≥ P.maxConsRef ∧ unlimitedRefinement P s = false) then
    .ok { s with numCons := 0, step := P.firstStep, cyc := s.cyc + 1 }
  else
    match s.cur.pos.getLast?, s.cur.pos[s.refIter]?, s.refSet[toReplace]? with
    | some last, some it, some r =>
      match s.cur.pos[r]? with
      | none => .error .indexError
      | some q =>
        if rankDef = true ∨ env.dist last it ≤ env.dist q it then
          .ok { s with refSet := s.refSet.set toReplace (s.cur.pos.length - 1) }
        else .ok s
    | _, _, _ => .error .indexError

/-- rbfopt_algorithm.py:2206-2267 `refinement_update`.  Out-of-range accesses are `IndexError`. -/
def refinementUpdate (P : Params) (env : Env O) (s : Alg O) (modelImpr realImpr : ℚ)
    (toReplace : ℕ) (rankDef : Bool) : Except PyErr (Alg O) :=
  let rm := updateRefinementRadius P s.refRadius modelImpr realImpr
  let s := { s with numCons := s.numCons + 1, refRadius := rm.1 }
  match s.refSet[toReplace]? with
  | none => .error .indexError
  | some r0 =>
    match refAccept env s rm.2 toReplace r0 with
    | .error e => .error e
    | .ok (s, toReplace) =>
      match refContinue P env s toReplace rankDef with
      | .error e => .error e
      | .ok s =>
        .ok (if s.numCons < P.maxConsRef then { s with fminLastRefine := s.fmin } else s)

/-- rbfopt_algorithm.py:2340-2353 `stalling_update`. With an infinite reference value the
comparison involves `inf - inf = nan` and is false. -/
def stallingUpdate (P : Params) (s : Alg O) : Alg O :=
  match s.fminStall with
  | ⊤ => { s with numStalled := s.numStalled + 1 }
  | (r : ℚ) =>
    if s.fmin ≤ ((r - P.epsImpr * max 1 |r| : ℚ) : EVal) then
      { s with numStalled := 0, fminStall := s.fmin }
    else { s with numStalled := s.numStalled + 1 }

/-- rbfopt_algorithm.py:2355-2383 `require_accurate_evaluation`. -/
def requireAccurate (P : Params) (s : Alg O) (noisyVal : ℚ) : Bool :=
  (match s.fmin with
   | ⊤ => false   -- `inf - eps*inf` is `nan`, the comparison is false
   | (b : ℚ) => decide (noisyVal ≤ b - P.epsImpr * max 1 |b|)) ||
  decide (noisyVal ≤ P.target + P.epsOpt * |P.target|)

/-- Local variables of `optimize_serial` that survive from one pass to the next: `gap`, and
`err_l, err_u`, which are unbound (`none`) until the first noisy evaluation of this call
(rbfopt_algorithm.py:845, 1129). -/
structure Loc where
  gap : EVal
  err : Option (ℚ × ℚ)

/-- Restart condition (rbfopt_algorithm.py:869-878). -/
def shouldRestart (P : Params) (s : Alg O) : Bool :=
  s.step ≤ P.firstStep ∧
    (((s.discarded.length : ℚ) ≥ (P.discWindow : ℚ) / 2 ∧
      ((s.discarded.count true : ℕ) : ℚ) ≥ P.maxFracDisc * (s.discarded.length : ℚ)) ∨
     (s.numStalled ≥ P.maxStalled ∧
      s.evalcount + 3 * (P.n + 1 + P.cycleLength) < P.maxEval ∧
      s.cyc < (P.maxCycles : ℤ) - 1))

/-- What the dispatch of a pass yields: the proposed point and, in a refinement step, the data for
`refinement_update`. -/
inductive Dispatch (O : Type)
  | go (s : Alg O) (next : Option Pt) (ref : Option RefProposal)
  | skip (s : Alg O)      -- `continue`

/-- rbfopt_algorithm.py:990-996: data computed at the first refinement iteration. -/
def initRefIfNeeded (env : Env O) (s : Alg O) : Except PyErr (Alg O) :=
  if s.numCons = 0 then
    if s.fminIdx < s.cur.pos.length then
      match env.initRef s with
      | .error e => .error e
      | .ok ((set, rad), o) =>
        .ok { s with refSet := set, refRadius := rad, refIter := s.fminIdx, opq := o }
    else .error .indexError
  else .ok s

/-- rbfopt_algorithm.py:953-1008: build the RBF model or the linear model.  The boolean is
`true` for `continue`. -/
def buildModel (P : Params) (env : Env O) (s : Alg O) : Except PyErr (Alg O × Bool) :=
  if s.step ≤ P.localStep then
    let (f, o) := env.modelFails s
    .ok ({ s with opq := o, step := if f then P.restorationStep else s.step }, false)
  else if s.step = P.refinementStep then
    match initRefIfNeeded env s with
    | .error e => .error e
    | .ok s =>
      let (f, o) := env.linFails s
      let s := { s with opq := o }
      if f then .ok ({ s with step := P.firstStep, cyc := s.cyc + 1 }, true)
      else .ok (s, false)
  else .ok (s, false)

/-- Should the nearest node be re-evaluated instead (rbfopt_algorithm.py:2619-2631)?  `d` is the
distance to the nearest node, `b` its noisy flag, `bump` the minimum bumpiness; `n_bump` is `+inf`
or `-inf` when the point is close to a node. -/
def preferOld (P : Params) (lp : LocalProposal) (d : ℚ) (b : Bool) (bump : EVal) : Bool :=
  if d > P.minDist then lp.newBumpLarger else b && decide (bump ≠ ⊤)

/-- Tail of `local_step` (rbfopt_algorithm.py:2607-2637) and the removal of the node to be
re-evaluated (1053-1058). -/
def localDispatch (P : Params) (env : Env O) (s : Alg O) (lp : LocalProposal) :
    Except PyErr (Dispatch O) :=
  if P.twoPhase = true ∧ s.mode = .accurate then
    match lp.bump, lp.next with
    | some bump, some p =>
      match getMinDistanceAndIndex env.dist p s.cur.pos with
      | none => .error .assertionError
      | some (d, ind) =>
        match s.cur.noisy[ind]?, s.cur.pos[ind]? with
        | some b, some q =>
          if preferOld P lp d b bump = true then
            match removeNode s ind s.nAtRestart with
            | .error e => .error e
            | .ok s => .ok (.go s (some q) none)
          else .ok (.go s (some p) none)
        | _, _ => .error .indexError
    | _, _ => .ok (.go s lp.next none)
  else .ok (.go s lp.next none)

/-- What `local_step` does to `self.node_err_bounds` in two-phase optimization and accurate mode
(rbfopt_algorithm.py:2611-2614, rbfopt_aux_problems.py:777-801): without function scaling
`get_min_bump_node` works on the array of the object and does not restore the intervals it sets to
zero. -/
def eraseErr (P : Params) (s : Alg O) (is : List ℕ) : Alg O :=
  if P.twoPhase = true ∧ s.mode = .accurate then
    { s with cur := { s.cur with err := s.cur.err.mapIdx (fun i e => if i ∈ is then (0, 0) else e) } }
  else s

/-- rbfopt_algorithm.py:1018-1080: dispatch on the current step. -/
def dispatch (P : Params) (env : Env O) (s : Alg O) : Except PyErr (Dispatch O) :=
  if s.step = P.infStep then
    match env.search s with
    | .error e => .error e
    | .ok (p, o) => .ok (.go { s with opq := o } p none)
  else if s.step = P.restorationStep then
    match restorationSearch P env s with
    | .error e => .error e
    | .ok (none, s') =>
      if s'.cur.pos.length ≥ P.n + 1 ∧ s'.solveUnder = false then
        .ok (.skip { advanceStep P s' with solveUnder := true })
      else
        match restart P env s' with
        | .error e => .error e
        | .ok s'' => .ok (.skip s'')
    | .ok (some p, s') => .ok (.go s' (some p) none)
  else if s.step = P.localStep then
    match env.localSearch s with
    | .error e => .error e
    | .ok (lp, o) => localDispatch P env (eraseErr P { s with opq := o } lp.erased) lp
  else if s.step = P.refinementStep then
    match env.refStep s with
    | .error e => .error e
    | .ok (rp, o) => .ok (.go { s with opq := o } rp.next (some rp))
  else
    match env.search s with
    | .error e => .error e
    | .ok (p, o) => .ok (.go { s with opq := o } p none)

/-- Result of evaluating the next point: value, noisy flag, the (possibly stale) locals. -/
structure EvalRes (O : Type) where
  s : Alg O
  val : ℚ
  isNoisy : Bool
  err : Option (ℚ × ℚ)

/-- Nearest record made before the last restart (rbfopt_algorithm.py:1107-1113, 1121-1127):
its index if it is within `eps_zero` (strictly). -/
def reuseIndex (P : Params) (env : Env O) (s : Alg O) (orig : Pt) : Option ℕ :=
  if s.nAtRestart > 0 then
    match getMinDistanceAndIndex env.dist orig (s.all.pos.take s.nAtRestart) with
    | some (d, i) => if d < P.epsZero then some i else none
    | none => none
  else none

/-- Value reused in accurate mode: the nearest old record must be accurate
(rbfopt_algorithm.py:1107-1113). -/
def reuseAcc (P : Params) (env : Env O) (s : Alg O) (orig : Pt) : Option ℚ :=
  match reuseIndex P env s orig with
  | none => none
  | some i =>
    match s.all.noisy[i]?, s.all.val[i]? with
    | some false, some v => some v
    | _, _ => none

/-- Flag and value reused in noisy mode (rbfopt_algorithm.py:1121-1127). -/
def reuseNoisy (P : Params) (env : Env O) (s : Alg O) (orig : Pt) : Option (Bool × ℚ) :=
  match reuseIndex P env s orig with
  | none => none
  | some i =>
    match s.all.noisy[i]?, s.all.val[i]? with
    | some b, some v => some (b, v)
    | _, _ => none

/-- rbfopt_algorithm.py:1120-1133: first evaluation in noisy mode, or reuse. -/
def noisyFirst (P : Params) (env : Env O) (s : Alg O) (loc : Loc) (orig : Pt) : EvalRes O :=
  match reuseNoisy P env s orig with
  | some (b, v) => { s := s, val := v, isNoisy := b, err := loc.err }
  | none =>
    let (x, s1) := objfunNoisy env s orig
    { s := { s1 with noisyEvalcount := s1.noisyEvalcount + 1 }, val := x.1, isNoisy := true
      err := some (x.2.1, x.2.2) }

/-- rbfopt_algorithm.py:1105-1141: evaluate or reuse. -/
def evaluateNext (P : Params) (env : Env O) (s : Alg O) (loc : Loc) (orig : Pt) :
    Except PyErr (EvalRes O) :=
  if s.mode = .accurate then
    match reuseAcc P env s orig with
    | some v => .ok { s := s, val := v, isNoisy := false, err := loc.err }
    | none =>
      let (v, s1) := objfun env s orig
      .ok { s := { s1 with evalcount := s1.evalcount + 1 }, val := v, isNoisy := false
            err := loc.err }
  else
    let r := noisyFirst P env s loc orig
    if r.isNoisy then
      match r.err with
      | none => .error .nameError       -- `err_l` is unbound (line 1135)
      | some e =>
        if requireAccurate P r.s (r.val + e.1) then
          let s1 := updateLog r.s r.val loc.gap       -- line 1136
          let (v, s2) := objfun env s1 orig
          .ok { s := { s2 with evalcount := s2.evalcount + 1 }, val := v, isNoisy := false
                err := r.err }
        else .ok r
    else .ok r

/-- rbfopt_algorithm.py:1143-1148: add to the lists. -/
def addResult (s : Alg O) (p orig : Pt) (r : EvalRes O) : Except PyErr (Alg O) :=
  if r.isNoisy then
    match r.err with
    | none => .error .nameError
    | some e => .ok (addNoisyNode s p orig r.val e.1 e.2)
  else .ok (addNode s p orig r.val)

/-- Condition for starting a refinement phase (rbfopt_algorithm.py:1160-1167). -/
def startRefinement (P : Params) (s : Alg O) : Bool :=
  (s.step = P.localStep ∨ (s.step = P.localStep - 1 ∧ P.doLocal = false)) ∧
    (((s.itercount : ℤ) ≥ (s.iterLastRefine : ℤ) +
        (P.refFreq : ℤ) * ((P.cycleLength : ℤ) - (if P.doInf then 1 else 2))) ∨
     unlimitedRefinement P s = true)

/-- rbfopt_algorithm.py:1154-1171: choose the next step after a point was added. -/
def afterAdd (P : Params) (env : Env O) (s : Alg O) (ref : Option RefProposal) (val : ℚ) :
    Except PyErr (Alg O) :=
  if s.step = P.refinementStep then
    match ref with
    | none => .error .nameError
    | some rp =>
      match env.realImpr s val with
      | .error e => .error e
      | .ok real =>
        match refinementUpdate P env s rp.modelImpr real rp.toReplace rp.rankDeficient with
        | .error e => .error e
        | .ok s => .ok { s with iterLastRefine := s.itercount }
  else if startRefinement P s then
    .ok { s with step := P.refinementStep, iterLastRefine := s.itercount }
  else .ok (advanceStep P s)

/-- rbfopt_algorithm.py:1092-1095: the proposed point is discarded. -/
def discardPoint (P : Params) (s : Alg O) : Alg O :=
  let s := advanceStep P s
  { s with discarded := dequePush P.discWindow s.discarded true, numCons := 0 }

/-- rbfopt_algorithm.py:1087-1172: discard or evaluate and add. -/
def processPoint (P : Params) (env : Env O) (s : Alg O) (loc : Loc) (next : Option Pt)
    (ref : Option RefProposal) : Except PyErr (Alg O × Loc) :=
  match next with
  | none => .ok (discardPoint P s, loc)
  | some p0 =>
    let p := clipPt p0 P.lLower P.lUpper
    match getMinDistance env.dist p s.cur.pos with
    | none => .error .assertionError
    | some d =>
      if d ≤ P.minDist then .ok (discardPoint P s, loc)
      else
        let orig := env.toOrig p
        match evaluateNext P env s loc orig with
        | .error e => .error e
        | .ok r =>
          match addResult r.s p orig r with
          | .error e => .error e
          | .ok s =>
            match currentGap P s with
            | .error e => .error e
            | .ok gap =>
              let s := updateLog s r.val gap
              match afterAdd P env s ref r.val with
              | .error e => .error e
              | .ok s =>
                .ok ({ s with discarded := dequePush P.discWindow s.discarded false },
                     { gap := gap, err := r.err })

/-- rbfopt_algorithm.py:1174-1187: end of a pass.  Saving (`save_to_file`) does not change the
object (see `Model/Persist.lean`), but `itercount % save_state_interval` raises when the interval
is 0. -/
def endPass (P : Params) (s : Alg O) : Except PyErr (Alg O) :=
  let s := { s with itercount := s.itercount + 1 }
  let s := stallingUpdate P s
  let s := phaseUpdate P s
  if P.saveInterval = 0 then .error .zeroDivisionError else .ok s

/-- rbfopt_algorithm.py:868-880: restart if necessary. -/
def restartIfNeeded (P : Params) (env : Env O) (s : Alg O) : Except PyErr (Alg O) :=
  if shouldRestart P s then restart P env s else .ok s

/-- rbfopt_algorithm.py:859-1187: one pass of the body of the main loop. -/
def pass (P : Params) (env : Env O) (s : Alg O) (loc : Loc) : Except PyErr (Alg O × Loc) :=
  let s := { s with passes := s.passes + 1 }
  if (s.step = P.infStep ∧ P.doInf = false) ∨ (s.step = P.localStep ∧ P.doLocal = false) then
    .ok (advanceStep P s, loc)
  else
    match restartIfNeeded P env s with
    | .error e => .error e
    | .ok s =>
      match env.prep s with
      | .error e => .error e
      | .ok o =>
        match buildModel P env { s with opq := o } with
        | .error e => .error e
        | .ok (s, true) => .ok (s, loc)
        | .ok (s, false) =>
          match dispatch P env s with
          | .error e => .error e
          | .ok (.skip s) => .ok (s, loc)
          | .ok (.go s next ref) =>
            match processPoint P env s loc next ref with
            | .error e => .error e
            | .ok (s, loc) =>
              match endPass P s with
              | .error e => .error e
              | .ok s => .ok (s, loc)

/-- Condition of the main loop (rbfopt_algorithm.py:852-858). -/
def loopCond (P : Params) (env : Env O) (start pause : ℕ) (s : Alg O) (loc : Loc) : Bool :=
  s.itercount - start < pause ∧ s.itercount < P.maxIter ∧ s.evalcount < P.maxEval ∧
    ((s.evalcount : ℚ) : EVal) < P.searchSpace ∧ s.cyc < (P.maxCycles : ℤ) ∧
    ((env.clock s : ℚ) : EVal) < P.maxClock ∧ ((P.epsOpt : ℚ) : EVal) < loc.gap

/-- Outcome of a bounded execution of the main loop. -/
inductive LoopRes (O : Type)
  | done (s : Alg O) (loc : Loc)
  | raised (e : PyErr)
  | outOfFuel

/-- The main loop (rbfopt_algorithm.py:852-1188), `fuel` bounding the number of passes; that some
fuel always suffices is theorem `C11`. -/
def loop (P : Params) (env : Env O) (start pause : ℕ) : ℕ → Alg O → Loc → LoopRes O
  | 0, s, loc => if loopCond P env start pause s loc then .outOfFuel else .done s loc
  | fuel + 1, s, loc =>
    if loopCond P env start pause s loc then
      match pass P env s loc with
      | .error e => .raised e
      | .ok (s, loc) => loop P env start pause fuel s loc
    else .done s loc

/-- rbfopt_algorithm.py:841-843: initialize if no iteration has been made. -/
def firstRestart (P : Params) (env : Env O) (s : Alg O) : Except PyErr (Alg O) :=
  if s.itercount = 0 then restart P env s else .ok s

/-- Start of `optimize_serial` (rbfopt_algorithm.py:828-846). -/
def serialStart (P : Params) (env : Env O) (s : Alg O) : Except PyErr (Alg O × Loc) :=
  match firstRestart P env s with
  | .error e => .error e
  | .ok s =>
    match currentGap P s with
    | .error e => .error e
    | .ok gap => .ok (s, { gap := gap, err := none })

/-- Result of `optimize()`: the returned quintuple and the object afterwards. -/
structure OptResult (O : Type) where
  value : ℚ
  /-- the best point before categorical compression (see `Model/Problem.lean`) -/
  point : Pt
  itercount : ℕ
  evalcount : ℕ
  noisyEvalcount : ℕ
  final : Alg O

/-- Outcome of `optimize()`. -/
inductive OptRes (O : Type)
  | ret (r : OptResult O)
  | raised (e : PyErr)
  | outOfFuel

/-- rbfopt_algorithm.py:793-812: find the best point and return it. -/
def optimizeReturn (s : Alg O) : OptRes O :=
  match argminVal s.all.val with
  | none => .raised .valueError
  | some (v, i) =>
    match s.all.pos[i]?, s.all.err[i]?, s.all.noisy[i]? with
    | some p, some _, some _ =>
      .ret { value := v, point := p, itercount := s.itercount, evalcount := s.evalcount
             noisyEvalcount := s.noisyEvalcount, final := s }
    | _, _, _ => .raised .indexError

/-- rbfopt_algorithm.py:752-812 `optimize`, one CPU, at least one unfixed variable. -/
def optimize (P : Params) (env : Env O) (fuel pause : ℕ) (s : Alg O) : OptRes O :=
  match serialStart P env s with
  | .error e => .raised e
  | .ok (s1, loc) =>
    match loop P env s.itercount pause fuel s1 loc with
    | .raised e => .raised e
    | .outOfFuel => .outOfFuel
    | .done s2 _ => optimizeReturn { s2 with elapsed := s2.elapsed + env.callTime s2 }

end Rbfopt
