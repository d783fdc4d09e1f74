import Verif.Model.Steps
import Verif.Model.Domain
import Verif.Spec.Domain
import Verif.Spec.Genetic

/-!
# Specification vocabulary for the search steps

What the random draws of a search can be, what is assumed of the solver, and what is promised of the
points found.
-/

namespace Rbfopt

/-- The problem as the search steps see it: the bounds are `l_lower`, `l_upper`, the bounds after
domain scaling (rbfopt_algorithm.py:439-446). -/
def stepProblem (sc : Scaling) (I : Internal) : Internal :=
  I.withBox (transformBounds sc I.lower I.upper).1 (transformBounds sc I.lower I.upper).2

/-- `x` is `y` up to the integrality tolerance of a solver: closer than one half on integer
variables, equal elsewhere. -/
def SolverNear (ints : List ℕ) (x y : Pt) : Prop :=
  x.length = y.length ∧
    ∀ i < x.length, if i ∈ ints then |x.getD i 0 - y.getD i 0| < 1/2 else x.getD i 0 = y.getD i 0

/-- Assumption on the solver: what it returns is, up to the integrality tolerance, a feasible point of
the problem it was given. -/
def SolverPointOk (J : Internal) (o : SolverOutcome) : Prop :=
  ∀ x, o = .optimal x → ∃ y, FeasibleInternal J y ∧ SolverNear J.intVars x y

/-- Possible draws of a search in the box of `J`. -/
def SearchDrawsOk (J : Internal) (m : SearchMethod) (base : ℕ) (objfun : List Pt → List EVal)
    (d : SearchDraws) : Prop :=
  match m with
  | .genetic => d.initial.length = gaPopulationSize base J.dim ∧
      (∀ u ∈ d.initial, UnitRow (workDim J) u) ∧
      (∃ gens, DrawsOk J (gaPopulationSize base J.dim) gens objfun 0
        (d.initial.map (samplePoint J)) d.gens) ∧
      ∀ pop, gaGenerations J (gaPopulationSize base J.dim) d.gens
        (d.initial.map (samplePoint J)) = .ok pop → Ranks (objfun pop) d.last
  | .sampling => d.samples ≠ [] ∧ ∀ u ∈ d.samples, UnitRow (workDim J) u
  | .solver => SolverPointOk J d.solver

/-- A feasible point of the problem `J` whose non-categorical coordinates are between the bounds of
the search. -/
def FoundIn (J : Internal) (lo up : Pt) (q : Pt) : Prop :=
  FeasibleInternal J q ∧
    ∀ k < J.notCategorical.length, lo.getD k 0 ≤ q.getD k 0 ∧ q.getD k 0 ≤ up.getD k 0

/-- Assumptions on one call of `global_step`: sign of the setting, the solver, the length of the list
of fitness values, and the draws of the search in the box the step computes. -/
structure GlobalStepOk (C : TargetCfg) (m : SearchMethod) (base : ℕ) (J : Internal) (nodes : List Pt)
    (fminIdx : ℕ) (vals : List ℚ) (fmin fmax : ℚ) (step : ℕ) (rbfVal : Pt → ℚ)
    (rbfSolver : SolverOutcome) (objfun : GlobalInputs → List Pt → List EVal) (d : SearchDraws) :
    Prop where
  scaling : 0 ≤ C.localSearchBoxScaling
  solver : SolverPointOk J rbfSolver
  fitness : ∀ r pts, (objfun r pts).length = pts.length
  draws : ∀ r, globalStepInputs C J nodes fminIdx vals fmin fmax step rbfVal rbfSolver = .ok r →
    SearchDrawsOk (J.withBox r.lower r.upper) m base (objfun r) d

/-- Assumptions on one call of `local_step`, as for `global_step`. -/
structure LocalStepOk (C : LocalCfg) (m : SearchMethod) (base : ℕ) (J : Internal) (nodes : List Pt)
    (fminIdx : ℕ) (fmin : ℚ) (rbfVal : Pt → ℚ) (rbfSolver : SolverOutcome)
    (objfun : Pt × Pt → List Pt → List EVal) (d : SearchDraws) : Prop where
  scaling : 0 ≤ C.target.localSearchBoxScaling
  solver : SolverPointOk J rbfSolver
  fitness : ∀ r pts, (objfun r pts).length = pts.length
  draws : ∀ mr, localStepMin C J nodes fminIdx fmin rbfVal rbfSolver = .ok mr →
    ¬ improves C.epsImpr mr.2 fmin →
    SearchDrawsOk (J.withBox (localBox C.target J.intVars J.lower J.upper mr.1).1
        (localBox C.target J.intVars J.lower J.upper mr.1).2) m base
      (objfun (localBox C.target J.intVars J.lower J.upper mr.1)) d

/-- Random numbers of `refinement_step`: in [0, 1). -/
structure RefDataOk (D : RefData) : Prop where
  improving : ∀ us ∈ D.improvingDraws, ∀ u ∈ us, 0 ≤ u ∧ u < 1
  first : ∀ u ∈ D.firstDraws, 0 ≤ u ∧ u < 1
  round : ∀ ds ∈ D.roundDraws, ∀ u ∈ ds.2, 0 ≤ u ∧ u < 1

/-- The steps of a run are those of the code on the problem `J` with arbitrary settings, RBF, fitness
functions and random numbers: `env.search` is the pure global or the global step
(rbfopt_algorithm.py:1023-1031, 1067-1080), `env.localSearch` the search of `local_step` (1037-1052),
`env.refStep` the refinement step (1059-1066), `env.restCand` the genetic search of
`restoration_search` followed by rounding (2127-2139); they are given the current nodes. -/
structure StepsComputed {O : Type} (env : Env O) (J : Internal) : Prop where
  search : ∀ s p o, env.search s = .ok (some p, o) →
    (∃ m base objfun d, (∀ pts, (objfun pts).length = pts.length) ∧
      SearchDrawsOk J m base objfun d ∧ auxSearch J m base objfun d = .ok (some p)) ∨
    (∃ C m base fminIdx vals fmin fmax step rbfVal rbfSolver objfun d,
      GlobalStepOk C m base J s.cur.pos fminIdx vals fmin fmax step rbfVal rbfSolver objfun d ∧
      globalStep C m base J s.cur.pos fminIdx vals fmin fmax step rbfVal rbfSolver objfun d =
        .ok (some p))
  loc : ∀ s lp o, env.localSearch s = .ok (lp, o) →
    ∃ C m base fminIdx fmin fmax rbfVal rbfSolver objfun d out,
      LocalStepOk C m base J s.cur.pos fminIdx fmin rbfVal rbfSolver objfun d ∧
      localSearchPoint C m base J s.cur.pos fminIdx fmin fmax rbfVal rbfSolver objfun d = .ok out ∧
      lp.next = out.next ∧ lp.adj = out.adjusted
  ref : ∀ s rp o, env.refStep s = .ok (rp, o) →
    ∃ epsZero minGradNorm D start, epsZero ≤ 1 ∧ s.cur.pos[s.refIter]? = some start ∧ RefDataOk D ∧
      D.h.length = J.dim ∧ rp.rankDeficient = D.rankDeficient ∧
      refinementStepFn epsZero minGradNorm J env.dist s.cur.pos s.refSet s.refIter s.refRadius D =
        .ok (rp.next, rp.modelImpr, rp.toReplace)
  rest : ∀ s i, ∃ base objfun d p, (∀ pts, (objfun pts).length = pts.length) ∧
    SearchDrawsOk J .genetic base objfun d ∧ auxSearch J .genetic base objfun d = .ok (some p) ∧
    env.restCand s i = roundInts J.intVars p

end Rbfopt
