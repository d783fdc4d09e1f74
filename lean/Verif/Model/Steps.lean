import Verif.Model.AuxObj
import Verif.Model.Bump
import Verif.Model.Refinement
import Verif.Model.Target

/-!
# The search steps

rbfopt_algorithm.py:2388-2902 (`pure_global_step`, `local_step`, `refinement_step`, `global_step`)
and the searches they call, rbfopt_aux_problems.py:32-557 (`pure_global_search`, `minimize_rbf`,
`global_search`).  The RBF, the fitness of points and the solver results are arbitrary arguments.
-/

namespace Rbfopt

/-- The problem with other bounds: the steps are called with `self.l_lower`, `self.l_upper`
(rbfopt_algorithm.py:1023-1080), the auxiliary problems with `local_varl`, `local_varu`
(2601-2604, 2898-2901); integer and categorical variables stay the same. -/
def Internal.withBox (I : Internal) (lo up : Pt) : Internal := { I with lower := lo, upper := up }

/-- Setting `global_search_method`; any other string raises ValueError
(rbfopt_aux_problems.py:113-191, 435-524). -/
inductive SearchMethod | genetic | sampling | solver
  deriving DecidableEq, Repr

/-- Outcome of the solver: not found, no optimal solution or an exception, values of the variables. -/
inductive SolverOutcome | unavailable | failed | optimal (x : Pt)
  deriving DecidableEq, Repr

/-- rbfopt_aux_problems.py:163-187, 291-316, 496-517: the solver is called and the integer variables
of its solution are rounded; no solution is `None`; if it is not found RuntimeError is raised. -/
def solverSearch (ints : List ℕ) : SolverOutcome → Except PyErr (Option Pt)
  | .unavailable => .error .runtimeError
  | .failed => .ok none
  | .optimal x => .ok (some (roundInts ints x))

/-- The random draws and the solver outcome of one search. -/
structure SearchDraws where
  initial : List Pt
  gens : List GenDraws
  last : List ℕ
  samples : List Pt
  solver : SolverOutcome

/-- rbfopt_aux_problems.py:112-193 `pure_global_search` and 434-527 `global_search` after the
assertions; `base` is `ga_base_population_size`, `objfun` the fitness of points (it decides the
rankings in `d`). -/
def auxSearch (I : Internal) (m : SearchMethod) (base : ℕ) (objfun : List Pt → List EVal)
    (d : SearchDraws) : Except PyErr (Option Pt) :=
  match m with
  | .genetic =>
    match gaOptimize I base d.initial d.gens d.last with
    | .error e => .error e
    | .ok p => .ok (some p)
  | .sampling =>
    match samplingSearch I objfun d.samples with
    | .error e => .error e
    | .ok p => .ok (some p)
  | .solver => solverSearch I.intVars d.solver

/-- rbfopt_aux_problems.py:414-415: the assertions of `global_search` on its numeric arguments, then
the search. -/
def globalSearch (I : Internal) (m : SearchMethod) (base : ℕ) (objfun : List Pt → List EVal)
    (weight fmin fmax : ℚ) (d : SearchDraws) : Except PyErr (Option Pt) :=
  if 0 ≤ weight ∧ weight ≤ 1 ∧ fmin ≤ fmax then auxSearch I m base objfun d
  else .error .assertionError

/-- rbfopt_algorithm.py:2818-2897, the part of `global_step` before the search: target, weight and
box.  `I` has the bounds given to the step; `rbfVal` is the interpolant, `rbfSolver` the outcome of
`minimize_rbf`, called for Gutmann's method only. -/
def globalStepInputs (C : TargetCfg) (I : Internal) (nodes : List Pt) (fminIdx : ℕ) (vals : List ℚ)
    (fmin fmax : ℚ) (step : ℕ) (rbfVal : Pt → ℚ) (rbfSolver : SolverOutcome) :
    Except PyErr GlobalInputs :=
  match nodes[fminIdx]? with
  | none => .error .assertionError
  | some best =>
    if C.numGlobalSearches < step then .error .assertionError
    else
      match (if C.gutmann then solverSearch I.intVars rbfSolver else .ok none) with
      | .error e => .error e
      | .ok p => globalInputs C I.intVars I.lower I.upper (p.map (fun p => (p, rbfVal p))) best vals
          fmin fmax step

/-- rbfopt_algorithm.py:2742-2902 `global_step`; the fitness may depend on the target, the weight and
the box. -/
def globalStep (C : TargetCfg) (m : SearchMethod) (base : ℕ) (I : Internal) (nodes : List Pt)
    (fminIdx : ℕ) (vals : List ℚ) (fmin fmax : ℚ) (step : ℕ) (rbfVal : Pt → ℚ)
    (rbfSolver : SolverOutcome) (objfun : GlobalInputs → List Pt → List EVal) (d : SearchDraws) :
    Except PyErr (Option Pt) :=
  match globalStepInputs C I nodes fminIdx vals fmin fmax step rbfVal rbfSolver with
  | .error e => .error e
  | .ok r => globalSearch (I.withBox r.lower r.upper) m base (objfun r) r.distWeight fmin fmax d

/-- What `local_step` reads of the settings. -/
structure LocalCfg where
  target : TargetCfg
  epsImpr : ℚ
  minDist : ℚ

/-- rbfopt_algorithm.py:2567-2581: the minimum of the RBF and its value, or the best node if there is
no solution or its value is not below that of the best node (plus `eps_zero`). -/
def rbfMinimum (epsZero : ℚ) (p : Option Pt) (rbfVal : Pt → ℚ) (best : Pt) (fmin : ℚ) : Pt × ℚ :=
  match p with
  | none => (best, fmin)
  | some p => if rbfVal p ≥ fmin + epsZero then (best, fmin) else (p, rbfVal p)

/-- rbfopt_algorithm.py:2582-2586 and 2590: is the value an improvement; the value to look for if it
is not. -/
def improves (epsImpr v fmin : ℚ) : Prop := v ≤ fmin - epsImpr * max 1 |fmin|

instance (e v f : ℚ) : Decidable (improves e v f) := inferInstanceAs (Decidable (_ ≤ _))

/-- Result of the first part of `local_step`: adjusted or not, target value, point. -/
structure LocalSearchOut where
  adjusted : Bool
  target : ℚ
  next : Option Pt
  deriving DecidableEq

/-- rbfopt_algorithm.py:2563-2581: the minimum of the RBF found by `local_step`. -/
def localStepMin (C : LocalCfg) (I : Internal) (nodes : List Pt) (fminIdx : ℕ) (fmin : ℚ)
    (rbfVal : Pt → ℚ) (rbfSolver : SolverOutcome) : Except PyErr (Pt × ℚ) :=
  match nodes[fminIdx]? with
  | none => .error .assertionError
  | some best =>
    match solverSearch I.intVars rbfSolver with
    | .error e => .error e
    | .ok p => .ok (rbfMinimum C.target.epsZero p rbfVal best fmin)

/-- rbfopt_algorithm.py:2590: the value to look for if the minimum is not an improvement. -/
def localTarget (fmin : ℚ) : ℚ := fmin - 1/100 * max 1 |fmin|

/-- rbfopt_algorithm.py:2582-2605, the search done by `local_step`. -/
def localSearchPoint (C : LocalCfg) (m : SearchMethod) (base : ℕ) (I : Internal) (nodes : List Pt)
    (fminIdx : ℕ) (fmin fmax : ℚ) (rbfVal : Pt → ℚ) (rbfSolver : SolverOutcome)
    (objfun : Pt × Pt → List Pt → List EVal) (d : SearchDraws) : Except PyErr LocalSearchOut :=
  match localStepMin C I nodes fminIdx fmin rbfVal rbfSolver with
  | .error e => .error e
  | .ok mr =>
    if improves C.epsImpr mr.2 fmin then .ok ⟨false, mr.2, some mr.1⟩
    else
      let box := localBox C.target I.intVars I.lower I.upper mr.1
      match globalSearch (I.withBox box.1 box.2) m base (objfun box) (5/100) fmin fmax d with
      | .error e => .error e
      | .ok q => .ok ⟨true, localTarget fmin, q⟩

/-- Data for the decision between a new point and the re-evaluation of a node in two-phase
optimization (rbfopt_algorithm.py:2607-2610): is it made (`two_phase_optimization` and mode
`accurate`), scaled values and error bounds, bumpiness of the noisy interpolant and bumpiness of the
new point, flags of the nodes. -/
structure ReevalData where
  active : Bool
  vals : List ℚ
  errs : List ErrRow
  bump : List ℚ → List ErrRow → ℚ
  newBump : Pt → ℚ → ℚ
  noisy : List Bool

/-- rbfopt_algorithm.py:2455-2637 `local_step`: (adjusted, point, index of the node to re-evaluate). -/
def localStep (C : LocalCfg) (m : SearchMethod) (base : ℕ) (I : Internal) (dist : Pt → Pt → ℚ)
    (nodes : List Pt) (fminIdx : ℕ) (fmin fmax : ℚ) (rbfVal : Pt → ℚ) (rbfSolver : SolverOutcome)
    (objfun : Pt × Pt → List Pt → List EVal) (d : SearchDraws) (re : ReevalData) :
    Except PyErr (Bool × Option Pt × Option ℕ) :=
  match localSearchPoint C m base I nodes fminIdx fmin fmax rbfVal rbfSolver objfun d with
  | .error e => .error e
  | .ok out =>
    if re.active = true then
      let b := minBumpNode re.bump C.target.epsZero out.target re.vals re.errs
      match out.next with
      | none => .ok (out.adjusted, none, none)
      | some q =>
        match reevaluationChoice C.minDist b.index b.bump true (nodes.map (dist q))
          (re.newBump q out.target) re.noisy with
        | some i =>
          match nodes[i]? with
          | none => .error .indexError
          | some p => .ok (true, some p, some i)
        | none => .ok (out.adjusted, some q, none)
    else .ok (out.adjusted, out.next, none)

/-- What `refinement_step` reads: linear model `h`, `b`, whether the model set is rank deficient,
the QR factorisation and random numbers of `get_model_improving_point`, the norm of the gradient and
the step length of `get_candidate_point` (both involve square roots; here any rational numbers,
compare `candidatePoint`), and the random numbers of `get_integer_candidate`. -/
structure RefData where
  h : Pt
  b : ℚ
  rankDeficient : Bool
  qr : QR
  better : Pt → Bool
  improvingDraws : List (List ℚ)
  gradNorm : ℚ
  stepLength : ℚ
  firstDraws : List ℚ
  roundDraws : List (List ℚ × List ℚ)

/-- rbfopt_refinement.py:196-212: the candidate for a given step length, and the difference of its
model value. -/
def descentPoint (epsZero : ℚ) (lower upper start : Pt) (D : RefData) : Pt × ℚ :=
  if D.gradNorm ≤ epsZero then (start, 0)
  else
    let c := start.mapIdx (fun i x =>
      clipQ (x - D.stepLength * D.h.getD i 0) (lower.getD i 0) (upper.getD i 0))
    (c, dotQ D.h (List.zipWith (· - ·) start c))

/-- rbfopt_algorithm.py:2723-2736: the candidate of the linear model. -/
def refinementCandidate (epsZero minGradNorm : ℚ) (I : Internal) (dist : Pt → Pt → ℚ)
    (nodes : List Pt) (modelSet : List ℕ) (start : Pt) (radius : ℚ) (D : RefData) :
    Except PyErr (Option Pt × ℚ × ℕ) :=
  let c := descentPoint epsZero I.lower I.upper start D
  match argmaxVal (modelSet.map (fun i => dist start (nodes.getD i []))) with
  | none => .error .assertionError
  | some (_, toReplace) =>
    match (if I.intVars = [] then .ok (c.1, 0)
      else integerCandidate I D.h start c.1 radius D.firstDraws D.roundDraws) with
    | .error e => .error e
    | .ok (p, adj) =>
      .ok (if D.gradNorm ≤ minGradNorm then none else some p, c.2 + adj, toReplace)

/-- rbfopt_algorithm.py:2640-2739 `refinement_step`: point or None, model improvement, index in the
model set of the point to replace. -/
def refinementStepFn (epsZero minGradNorm : ℚ) (I : Internal) (dist : Pt → Pt → ℚ) (nodes : List Pt)
    (modelSet : List ℕ) (startIdx : ℕ) (radius : ℚ) (D : RefData) :
    Except PyErr (Option Pt × ℚ × ℕ) :=
  match nodes[startIdx]? with
  | none => .error .assertionError
  | some start =>
    if radius < 0 then .error .assertionError
    else if D.rankDeficient = true then
      match modelImprovingPoint I epsZero I.lower I.upper nodes modelSet startIdx radius D.qr D.better
        D.improvingDraws with
      | .error e => .error e
      | .ok (p, found, toReplace) =>
        if found = true then .ok (some p, dotQ D.h p + D.b, toReplace)
        else refinementCandidate epsZero minGradNorm I dist nodes modelSet start radius D
    else refinementCandidate epsZero minGradNorm I dist nodes modelSet start radius D

end Rbfopt
