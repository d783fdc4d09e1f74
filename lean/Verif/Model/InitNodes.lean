import Verif.Model.Problem

/-!
# Initial sample points

rbfopt_utils.py:167-624: corner strategies, Latin hypercube designs, number of samples,
`initialize_nodes`; 626-645 `round_integer_vars`; 2273-2304 `init_points_cleanup`.
-/

namespace Rbfopt

/-- `np.around` / Python 3 `round` on one number: nearest integer, ties to the even one
(rbfopt_utils.py:478, 503, 583, 606, 643). -/
def aroundEven (x : ℚ) : ℤ :=
  let f := ⌊x⌋
  let d := x - f
  if d < 1/2 then f else if d > 1/2 then f + 1 else if f % 2 = 0 then f else f + 1

/-- `point[integer_vars] = np.around(point[integer_vars])` (rbfopt_utils.py:626-645
`round_integer_vars`, 583, 606). -/
def roundInts (ints : List ℕ) (p : Pt) : Pt :=
  p.mapIdx (fun i x => if i ∈ ints then (aroundEven x : ℚ) else x)

/-- rbfopt_utils.py:167-204 `get_all_corners`: `itertools.product('lu', repeat=n)`, the last
coordinate varying fastest. -/
def allCorners : Pt → Pt → List Pt
  | l :: ls, u :: us => (allCorners ls us).map (l :: ·) ++ (allCorners ls us).map (u :: ·)
  | _, _ => [[]]

/-- rbfopt_utils.py:207-243 `get_lower_corners`. -/
def lowerCorners (lower upper : Pt) : List Pt :=
  lower :: (List.range lower.length).map (fun i => lower.set i (upper.getD i 0))

/-- `limits[np.random.randint(2, size=n), np.arange(n)]` with rows (upper, lower)
(rbfopt_utils.py:269-271): the drawn bits select, for each coordinate, the upper bound (0, here
`false`) or the lower bound (1, `true`). -/
def cornerOf : Pt → Pt → List Bool → Pt
  | l :: ls, u :: us, b :: bs => (if b then l else u) :: cornerOf ls us bs
  | _, _, _ => []

/-- The loop of `get_random_corners` (rbfopt_utils.py:272-275); the draws are given as a list,
`none` means that the loop is still running when they are used up. -/
def randomCornersLoop (dist : Pt → Pt → ℚ) (lower upper : Pt) : List (List Bool) → List Pt →
    Option (List Pt)
  | draws, acc =>
    if acc.length < lower.length + 1 then
      match draws with
      | [] => none
      | b :: bs =>
        let p := cornerOf lower upper b
        match getMinDistance dist p acc with
        | none => none
        | some d => randomCornersLoop dist lower upper bs (if d > 0 then acc ++ [p] else acc)
    else some acc

/-- rbfopt_utils.py:246-280 `get_random_corners`. -/
def randomCorners (dist : Pt → Pt → ℚ) (lower upper : Pt) (draws : List (List Bool)) :
    Option (List Pt) :=
  match draws with
  | [] => none
  | b :: bs => randomCornersLoop dist lower upper bs [cornerOf lower upper b]

/-- Random data of one Latin hypercube: `perm j` is the permutation of coordinate `j`, `noise i j`
the uniform number in `[0,1)` (rbfopt_utils.py:306-311). -/
structure LhsDraw where
  perm : ℕ → ℕ → ℕ
  noise : ℕ → ℕ → ℚ

/-- rbfopt_utils.py:283-315 `get_uniform_lhs`. -/
def uniformLhs (n N : ℕ) (d : LhsDraw) : List Pt :=
  (List.range N).map (fun i => (List.range n).map (fun j => (d.noise i j + (d.perm j i : ℚ)) / N))

/-- rbfopt_utils.py:371-378, 437-443: map a design to the box, with the bounds of integer variables
expanded by 0.499. -/
def scaleDesign (lower upper : Pt) (ints : List ℕ) (p : Pt) : Pt :=
  p.mapIdx (fun j x =>
    let b : ℚ := if j ∈ ints then 499/1000 else 0
    let l := lower.getD j 0
    let u := upper.getD j 0
    x * (2*b + u - l) + l - b)

/-- rbfopt_utils.py:318-380 `get_lhd_maximin_points` and 383-446 `get_lhd_corr_points`: for one
variable the two end points; otherwise the best of the generated designs, `choose` being "first
largest minimum distance" resp. "first smallest correlation" (`none`: no design, `ValueError`). -/
def lhdPoints (lower upper : Pt) (ints : List ℕ) (N : ℕ)
    (choose : List (List Pt) → Option (List Pt)) (draws : List LhsDraw) : Option (List Pt) :=
  if lower.length = 1 then some [lower, upper]
  else
    match choose (draws.map (uniformLhs lower.length N)) with
    | none => none
    | some lhd => some (lhd.map (scaleDesign lower upper ints))

/-- `lhs[dist_values.index(max(dist_values))]` (rbfopt_utils.py:367-370). -/
def chooseMax (score : List Pt → ℚ) (lhs : List (List Pt)) : Option (List Pt) :=
  match argmaxVal (lhs.map score) with
  | none => none
  | some (_, i) => lhs[i]?

/-- `lhs[corr_values.index(min(corr_values))]` (rbfopt_utils.py:433-436). -/
def chooseMin (score : List Pt → ℚ) (lhs : List (List Pt)) : Option (List Pt) :=
  match argminVal (lhs.map score) with
  | none => none
  | some (_, i) => lhs[i]?

/-- `abs(np.amax(np.corrcoef(mat, rowvar=0)[indices]))` (rbfopt_utils.py:431-435): score of a design
with minimum correlation, `corr` giving the list of pairwise correlations of the coordinates. -/
def corrScore (corr : List Pt → List ℚ) (design : List Pt) : ℚ :=
  match argmaxVal (corr design) with
  | none => 0
  | some (v, _) => |v|

/-- `init_strategy` (rbfopt_settings.py:369). -/
inductive Strategy | allCorners | lowerCorners | randCorners | lhdMaximin | lhdCorr
  deriving DecidableEq, Repr

/-- `settings.init_strategy in ['lhd_maximin', 'lhd_corr']` (rbfopt_utils.py:571, 613). -/
def Strategy.isLhd : Strategy → Bool
  | .lhdMaximin | .lhdCorr => true
  | _ => false

/-- What `initialize_nodes` reads, and numerical routines it calls: `score` of a design (minimum
distance, resp. `abs(np.amax(corrcoef))`), `independent` (singular value test, 615-631). -/
structure InitCfg where
  strategy : Strategy
  numCpus : ℕ
  sampleFraction : ℚ
  increaseParallel : ℚ
  midpoint : Bool
  minDist : ℚ
  maxRandomInit : ℕ
  dist : Pt → Pt → ℚ
  score : List Pt → ℚ
  independent : List Pt → Bool

/-- Random numbers drawn in one trial. -/
structure TrialDraw where
  bits : List (List Bool)
  lhs : List LhsDraw

/-- rbfopt_utils.py:448-478 `get_num_init_samples`. -/
def numInitSamples (C : InitCfg) (n : ℕ) : ℕ :=
  if C.numCpus > 1 then
    (max 2 (aroundEven ((n + 1) * C.sampleFraction * (1 + C.numCpus * C.increaseParallel)))).toNat
  else (max 2 (aroundEven ((n + 1) * C.sampleFraction))).toNat

/-- rbfopt_utils.py:481-503 `get_min_num_init_samples_parallel`. -/
def minNumInitSamplesParallel (C : InitCfg) (n : ℕ) : ℕ :=
  (max 2 (aroundEven ((n + 1) * C.sampleFraction))).toNat

/-- rbfopt_utils.py:588-601: points of the chosen strategy.  `none`: the random corner loop has not
ended with the given draws, or there is no design to choose from. -/
def strategyNodes (C : InitCfg) (lower upper : Pt) (ints : List ℕ) (N : ℕ) (d : TrialDraw) :
    Option (List Pt) :=
  match C.strategy with
  | .allCorners => some (allCorners lower upper)
  | .lowerCorners => some (lowerCorners lower upper)
  | .randCorners => randomCorners C.dist lower upper d.bits
  | .lhdMaximin => lhdPoints lower upper ints N (chooseMax C.score) d.lhs
  | .lhdCorr => lhdPoints lower upper ints N (chooseMin C.score) d.lhs

/-- rbfopt_utils.py:580-583 `midpoint`. -/
def midpointOf (lower upper : Pt) (ints : List ℕ) : Pt :=
  roundInts ints (List.zipWith (fun l u => (l + u) / 2) lower upper)

/-- rbfopt_utils.py:608-610: append the midpoint unless it is too close to a node. -/
def addMidpoint (C : InitCfg) (lower upper : Pt) (ints : List ℕ) (nodes : List Pt) : List Pt :=
  if C.midpoint then
    match getMinDistance C.dist (midpointOf lower upper ints) nodes with
    | none => nodes
    | some d => if d > C.minDist then nodes ++ [midpointOf lower upper ints] else nodes
  else nodes

/-- rbfopt_utils.py:586-631: one trial: nodes and whether they are rich enough. -/
def initTrial (C : InitCfg) (I : Internal) (d : TrialDraw) : Option (List Pt × Bool) :=
  let N := numInitSamples C I.lower.length
  let useCat := decide (I.expansion ≠ []) && C.strategy.isLhd
  let lower := if useCat then compressBounds I I.lower else I.lower
  let upper := if useCat then compressBounds I I.upper else I.upper
  let ints := if useCat then compressIntVars I I.intVars else I.intVars
  match strategyNodes C lower upper ints N d with
  | none => none
  | some nodes =>
    let nodes := nodes.map (roundInts ints)
    let nodes := addMidpoint C lower upper ints nodes
    let nodes := if useCat then nodes.map (expandPt I) else nodes
    some (nodes, C.independent nodes)

/-- The loop of `initialize_nodes` (rbfopt_utils.py:584-631): trials are numbered from `it`, `rem`
are left.  Result: nodes of the last trial if it was good, and `itercount`; `none` if a trial does
not end. -/
def initLoop (trial : ℕ → Option (List Pt × Bool)) : ℕ → ℕ → Option (Option (List Pt) × ℕ)
  | 0, it => some (none, it)
  | rem + 1, it =>
    match trial it with
    | none => none
    | some (nodes, true) => some (some nodes, it + 1)
    | some (_, false) => initLoop trial rem (it + 1)

/-- The loop and the test after it (rbfopt_utils.py:633-634): the exception is raised whenever the
last allowed trial was reached, even if it was good. -/
def runTrials (trial : ℕ → Option (List Pt × Bool)) (maxRandomInit : ℕ) :
    Option (Except PyErr (List Pt)) :=
  match initLoop trial maxRandomInit 0 with
  | none => none
  | some (r, it) =>
    if it = maxRandomInit then some (.error .runtimeError)
    else match r with
      | some nodes => some (.ok nodes)
      | none => some (.error .nameError)

/-- rbfopt_utils.py:505-624 `initialize_nodes`. -/
def initializeNodes (C : InitCfg) (I : Internal) (draws : ℕ → TrialDraw) :
    Option (Except PyErr (List Pt)) :=
  runTrials (fun i => initTrial C I (draws i)) C.maxRandomInit

/-- rbfopt_utils.py:2294-2300: for point `i`, clear the flags of the later points within
`min_dist`. -/
def cleanupStep (dist : Pt → Pt → ℚ) (minDist : ℚ) (pts : List Pt) (flags : List Bool) (i : ℕ) :
    List Bool :=
  flags.mapIdx (fun j b =>
    if i < j ∧ dist (pts.getD i []) (pts.getD j []) ≤ minDist then false else b)

/-- rbfopt_utils.py:2273-2304 `init_points_cleanup`: indices of the points to keep.  `bad` are the
points having a later point within `min_dist` (`np.amin` of the row is at most `min_dist`). -/
def initPointsCleanup (dist : Pt → Pt → ℚ) (minDist : ℚ) (pts : List Pt) : List ℕ :=
  let bad := (List.range pts.length).filter (fun i =>
    (List.range pts.length).any (fun j =>
      decide (i < j ∧ dist (pts.getD i []) (pts.getD j []) ≤ minDist)))
  let flags := bad.foldl (cleanupStep dist minDist pts) (pts.map (fun _ => true))
  (List.range pts.length).filter (fun i => flags.getD i false)

end Rbfopt
