import Verif.Spec.Steps
import Verif.Model.Parallel

/-!
# The search steps of the code in runs with several CPUs

A worker searching for the next point is given a copy of the nodes, including the temporary nodes of
the evaluations in progress (rbfopt_algorithm.py:1555-1557), and its result is harvested later, when
other nodes may have been added.
-/

namespace Rbfopt

variable {O : Type}

/-- `p` can be the result of a search step of the code on the problem `J` given the nodes `nodes`, for
some settings, RBF, fitness functions and random numbers: the pure global search, the global step, the
search of `local_step`, or the refinement step (rbfopt_algorithm.py:1729-1775, and the functions
`pure_global_step`, `global_step`, `local_step`, `refinement_step` run by the workers). -/
inductive StepOutput (dist : Pt → Pt → ℚ) (J : Internal) (nodes : List Pt) (p : Pt) : Prop
  | pureGlobal {m : SearchMethod} {base : ℕ} {objfun : List Pt → List EVal} {d : SearchDraws} :
      (∀ pts, (objfun pts).length = pts.length) → SearchDrawsOk J m base objfun d →
      auxSearch J m base objfun d = .ok (some p) → StepOutput dist J nodes p
  | global {C : TargetCfg} {m : SearchMethod} {base fminIdx : ℕ} {vals : List ℚ} {fmin fmax : ℚ}
      {step : ℕ} {rbfVal : Pt → ℚ} {rbfSolver : SolverOutcome}
      {objfun : GlobalInputs → List Pt → List EVal} {d : SearchDraws} :
      GlobalStepOk C m base J nodes fminIdx vals fmin fmax step rbfVal rbfSolver objfun d →
      globalStep C m base J nodes fminIdx vals fmin fmax step rbfVal rbfSolver objfun d =
        .ok (some p) → StepOutput dist J nodes p
  | loc {C : LocalCfg} {m : SearchMethod} {base fminIdx : ℕ} {fmin fmax : ℚ} {rbfVal : Pt → ℚ}
      {rbfSolver : SolverOutcome} {objfun : Pt × Pt → List Pt → List EVal} {d : SearchDraws}
      {out : LocalSearchOut} :
      LocalStepOk C m base J nodes fminIdx fmin rbfVal rbfSolver objfun d →
      localSearchPoint C m base J nodes fminIdx fmin fmax rbfVal rbfSolver objfun d = .ok out →
      out.next = some p → StepOutput dist J nodes p
  | ref {epsZero minGradNorm radius impr : ℚ} {D : RefData} {start : Pt} {modelSet : List ℕ}
      {startIdx r : ℕ} :
      epsZero ≤ 1 → nodes[startIdx]? = some start → RefDataOk D → D.h.length = J.dim →
      refinementStepFn epsZero minGradNorm J dist nodes modelSet startIdx radius D =
        .ok (some p, impr, r) → StepOutput dist J nodes p

/-- The points the code can produce: samples, points given by the user, and results of search steps
whose nodes are such points. -/
inductive CodePoint (P : Params) (env : Env O) (J : Internal) : Pt → Prop
  | sample {a : Alg O} {pts : List Pt} {o : O} {p : Pt} : env.initNodes a = .ok (pts, o) → p ∈ pts →
      CodePoint P env J p
  | user {p : Pt} : p ∈ P.initPos → CodePoint P env J p
  | step {nodes : List Pt} {p : Pt} : (∀ q ∈ nodes, CodePoint P env J q) →
      StepOutput env.dist J nodes p → CodePoint P env J p

end Rbfopt
