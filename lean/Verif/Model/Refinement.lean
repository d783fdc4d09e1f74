import Mathlib.Analysis.SpecialFunctions.Pow.Real
import Mathlib.Algebra.BigOperators.Fin
import Mathlib.Algebra.Order.Floor.Ring
import Mathlib.Data.Rat.Floor
import Verif.Model.InitNodes

/-!
# The refinement step

rbfopt_refinement.py:24-462 and rbfopt_algorithm.py:2715-2739 `refinement_step`.
-/

namespace Rbfopt

open Finset

/-! ## The continuous candidate (rbfopt_refinement.py:145-212), over the reals

numpy arrays of length `n` (asserted by the code, lines 187-195) are functions on `Fin n`. -/

/-- Euclidean norm `np.sqrt(np.dot(v, v))`. -/
noncomputable def vnorm {n : ℕ} (v : Fin n → ℝ) : ℝ := Real.sqrt (∑ i, v i * v i)

/-- `min(t, np.min(xs))` over the positions selected by `loc`; no change if there are none
(rbfopt_refinement.py:203-210). -/
noncomputable def minOver {n : ℕ} (t : ℝ) (loc : Fin n → Prop) [DecidablePred loc]
    (f : Fin n → ℝ) : ℝ := (univ.filter loc).fold min t f

open Classical in
/-- rbfopt_refinement.py:202-210: the step length `max_t`. -/
noncomputable def maxStep {n : ℕ} (minDist : ℝ) (lower upper h start : Fin n → ℝ) (radius : ℝ) :
    ℝ :=
  let t0 := radius / vnorm h
  let t1 := minOver t0 (fun i => h i > 0 ∧ start i ≥ lower i + minDist)
    (fun i => (start i - lower i) / h i)
  minOver t1 (fun i => h i < 0 ∧ start i ≤ upper i - minDist)
    (fun i => (start i - upper i) / h i)

/-- `np.clip` (rbfopt_refinement.py:211): `minimum(maximum(x, lo), hi)`. -/
noncomputable def clipR (x lo hi : ℝ) : ℝ := min (max x lo) hi

open Classical in
/-- rbfopt_refinement.py:145-212 `get_candidate_point`: candidate, model difference, gradient
norm. -/
noncomputable def candidatePoint {n : ℕ} (epsZero minDist : ℝ) (lower upper h start : Fin n → ℝ)
    (radius : ℝ) : (Fin n → ℝ) × ℝ × ℝ :=
  if vnorm h ≤ epsZero then (start, 0, vnorm h)
  else
    let t := maxStep minDist lower upper h start radius
    let c := fun i => clipR (start i - t * h i) (lower i) (upper i)
    (c, ∑ i, h i * (start i - c i), vnorm h)

/-! ## Rounding (rbfopt_refinement.py:215-342) -/

/-- Fancy indexing `point[expansion]` followed by `np.sum` (rbfopt_refinement.py:333). -/
def groupSum (q : Pt) (g : List ℕ) : ℚ := (g.map (fun i => q.getD i 0)).sum

/-- `np.random.choice(expansion, p=…)`: `cdf.searchsorted(u, side='right')` for a uniform random
number `u` in [0, 1): the first position whose cumulative weight exceeds `u`. -/
def weightedChoice (x acc : ℚ) : List (ℕ × ℚ) → Option ℕ
  | [] => none
  | (i, w) :: ws => if x < acc + w then some i else weightedChoice x (acc + w) ws

/-- rbfopt_refinement.py:333-340: one group.  `u` is the uniform random number drawn; without
weights numpy chooses position `⌊u * len⌋`.  A negative weight raises `ValueError`, and so does a
group without positions. -/
def chooseInGroup (u : ℚ) (q : Pt) (g : List ℕ) : Except PyErr ℕ :=
  let s := groupSum q g
  if s = 0 then
    match g[⌊u * g.length⌋.toNat]? with
    | some c => .ok c
    | none => .error .valueError
  else if ∃ i ∈ g, q.getD i 0 / s < 0 then .error .valueError
  else match weightedChoice u 0 (g.map (fun i => (i, q.getD i 0 / s))) with
    | some c => .ok c
    | none => .error .valueError

/-- rbfopt_refinement.py:341-342: `point[expansion] = 0; point[chosen] = 1`. -/
def setGroup (q : Pt) (g : List ℕ) (c : ℕ) : Pt :=
  (g.foldl (fun q i => q.set i 0) q).set c 1

/-- rbfopt_refinement.py:304-342 `round_categorical`; one random number per group. -/
def roundCategorical : List (List ℕ) → List ℚ → Pt → Except PyErr Pt
  | [], _, q => .ok q
  | g :: gs, us, q =>
    match chooseInGroup (us.headD 0) q g with
    | .error e => .error e
    | .ok c => roundCategorical gs us.tail (setGroup q g c)

/-- `np.dot` of two vectors. -/
def dotQ (a b : Pt) : ℚ := (List.zipWith (· * ·) a b).sum

/-- Squared Euclidean distance; `ru.distance(p, q) <= r` for `r ≥ 0` is `distSqQ p q ≤ r^2`. -/
def distSqQ (a b : Pt) : ℚ := (List.zipWith (fun x y => (x - y) ^ 2) a b).sum

/-- rbfopt_refinement.py:270-274: integer variables that are not binaries of a categorical
variable. -/
def plainInts (I : Internal) : List ℕ :=
  if I.expansion = [] then I.intVars
  else I.intVars.filter (fun i => decide (i < I.notCategorical.length))

/-- rbfopt_refinement.py:276-279: initial rounding, `np.where(h >= 0, ceil, floor)`. -/
def firstRounding (ints : List ℕ) (h cand : Pt) : Pt :=
  cand.mapIdx (fun i x => if i ∈ ints then (if h.getD i 0 ≥ 0 then (⌈x⌉ : ℚ) else ⌊x⌋) else x)

/-- rbfopt_refinement.py:288-290: random rounding, `np.where(uniform < frac, ceil, floor)`; `us i`
is the random number for coordinate `i`. -/
def randomRounding (ints : List ℕ) (us : List ℚ) (cand : Pt) : Pt :=
  cand.mapIdx (fun i x => if i ∈ ints then (if us.getD i 0 < x - ⌊x⌋ then (⌈x⌉ : ℚ) else ⌊x⌋)
    else x)

/-- Rounding of the categorical groups, if there are any (rbfopt_refinement.py:280-282, 291-295). -/
def roundGroups (I : Internal) (us : List ℚ) (q : Pt) : Except PyErr Pt :=
  if I.expansion = [] then .ok q else roundCategorical (I.expansion.map (·.2.2)) us q

/-- The loop rbfopt_refinement.py:285-300 over the random roundings (`draws`: random numbers of each
pass, for the integer variables and for the groups).  Line 292 resets the categorical part to that
of the candidate; non-integer variables always have the value of the candidate. -/
def integerLoop (I : Internal) (h start cand : Pt) (radius : ℚ) :
    List (List ℚ × List ℚ) → Pt → Except PyErr Pt
  | [], best => .ok best
  | (ui, uc) :: ds, best =>
    match roundGroups I uc (randomRounding (plainInts I) ui cand) with
    | .error e => .error e
    | .ok cur =>
      integerLoop I h start cand radius ds
        (if distSqQ cur start ≤ radius ^ 2 ∧ dotQ h cur < dotQ h best then cur else best)

/-- rbfopt_refinement.py:215-301 `get_integer_candidate`: point and model adjustment. -/
def integerCandidate (I : Internal) (h start cand : Pt) (radius : ℚ) (u0 : List ℚ)
    (draws : List (List ℚ × List ℚ)) : Except PyErr (Pt × ℚ) :=
  match roundGroups I u0 (firstRounding (plainInts I) h cand) with
  | .error e => .error e
  | .ok first =>
    match integerLoop I h start cand radius draws first with
    | .error e => .error e
    | .ok best => .ok (best, dotQ h cand - dotQ h best)

/-! ## The model-improving point (rbfopt_refinement.py:346-462) -/

/-- `np.clip` over the rationals. -/
def clipQ (x lo hi : ℚ) : ℚ := min (max x lo) hi

/-- `np.sign`. -/
def signQ (x : ℚ) : ℚ := if x > 0 then 1 else if x < 0 then -1 else 0

/-- rbfopt_refinement.py:438-440: a direction after clipping and before the categorical rounding. -/
def clipDir (lower upper start dir : Pt) (radius : ℚ) : Pt :=
  start.mapIdx (fun i s => clipQ (s + dir.getD i 0 * radius) (lower.getD i 0) (upper.getD i 0) - s)

/-- rbfopt_refinement.py:445-452: small entries are zeroed, integer entries become at least one in
absolute value and are rounded. -/
def intDir (epsZero : ℚ) (ints : List ℕ) (d : Pt) : Pt :=
  if ints = [] then d
  else d.mapIdx (fun i x =>
    let x := if |x| < epsZero then 0 else x
    if i ∈ ints then (aroundEven (signQ x * max |x| 1) : ℚ) else x)

/-- Coordinatewise sum. -/
def addPt (a b : Pt) : Pt := a.mapIdx (fun i x => x + b.getD i 0)
/-- Coordinatewise difference. -/
def subPt (a b : Pt) : Pt := a.mapIdx (fun i x => x - b.getD i 0)

/-- rbfopt_refinement.py:438-452: the direction computed in one pass of the loop. -/
def improvingDir (I : Internal) (epsZero : ℚ) (lower upper start dir : Pt) (radius : ℚ)
    (us : List ℚ) : Except PyErr Pt :=
  let d := clipDir lower upper start dir radius
  match roundGroups I us (addPt start d) with
  | .error e => .error e
  | .ok c => .ok (intDir epsZero I.intVars (if I.expansion = [] then d else subPt c start))

/-- rbfopt_refinement.py:415: the model set without the starting point. -/
def reducedSet (modelSet : List ℕ) (start : ℕ) : List ℕ := modelSet.filter (· ≠ start)

/-- What the pivoted QR factorisation yields (rbfopt_refinement.py:424-426): numerical rank, the
pivots `P`, and the columns of `Q`. -/
structure QR where
  rank : ℕ
  pivots : List ℕ
  cols : List Pt

/-- The loop rbfopt_refinement.py:432-461; `better d` says if adding the direction `d` increases the
rank (lines 454-458).  Result: direction, success, index to replace; `fuel` is
`model_size - i`. -/
def improvingLoop (I : Internal) (epsZero : ℚ) (lower upper start : Pt) (radius : ℚ) (qr : QR)
    (better : Pt → Bool) : ℕ → ℕ → List (List ℚ) → Pt → Except PyErr (Pt × Bool × ℕ)
  | 0, _, _, d =>
    match qr.pivots[qr.rank]? with
    | none => .error .indexError
    | some r => .ok (d, false, r)
  | fuel + 1, i, us, _ =>
    match qr.cols[i]? with
    | none => .error .indexError
    | some c =>
      match improvingDir I epsZero lower upper start c radius (us.headD []) with
      | .error e => .error e
      | .ok d =>
        if better d = true then
          match qr.pivots[i]? with
          | none => .error .indexError
          | some r => .ok (d, true, r)
        else improvingLoop I epsZero lower upper start radius qr better fuel (i + 1) us.tail d

/-- rbfopt_refinement.py:346-462 `get_model_improving_point`: point, success, index. -/
def modelImprovingPoint (I : Internal) (epsZero : ℚ) (lower upper : Pt) (nodes : List Pt)
    (modelSet : List ℕ) (startIdx : ℕ) (radius : ℚ) (qr : QR) (better : Pt → Bool)
    (us : List (List ℚ)) : Except PyErr (Pt × Bool × ℕ) :=
  let start := nodes.getD startIdx []
  let red := reducedSet modelSet startIdx
  if red.length = 0 then .ok (start, false, startIdx)
  else if qr.rank ≥ red.length then .ok (start, false, startIdx)
  else
    match improvingLoop I epsZero lower upper start radius qr better (red.length - qr.rank) qr.rank
      us (List.replicate start.length 0) with
    | .error e => .error e
    | .ok (d, ok, r) => .ok (addPt start d, ok, r)

/-! ## Start of a refinement phase (rbfopt_refinement.py:24-76) -/

/-- `np.percentile(l, 50)`: the percentile50, with linear interpolation between the two middle values. -/
def percentile50 (l : List ℚ) : ℚ :=
  let s := l.insertionSort (· ≤ ·)
  (s.getD ((s.length - 1) / 2) 0 + s.getD (s.length / 2) 0) / 2

/-- rbfopt_refinement.py:24-76 `init_refinement`: model set and radius.  `dist` holds the distances
of the nodes from the center, `order` is the result of `np.argsort` (which is not stable: any
sorting permutation is possible); `minRadius` is `ref_min_radius * 2**ref_init_radius_multiplier`.
Fewer than two nodes fail the assertion; the percentile50 of an empty list is `nan`, which happens only
for dimension 0 and is not modelled. -/
def initRefinement (minRadius : ℚ) (n : ℕ) (dist : List ℚ) (order : List ℕ) :
    Except PyErr (List ℕ × ℚ) :=
  if dist.length < 2 then .error .assertionError
  else
    let ms := order.take (min (n + 1) dist.length)
    .ok (ms, max (percentile50 (ms.tail.map (fun i => dist.getD i 0))) minRadius)

end Rbfopt
