import Verif.Props.EndToEnd
import Verif.Props.HonestLog
import Verif.Props.Records
import Verif.Props.Control
import Verif.Spec.TestFunctions

/-!
# What the result of a run says about the true optimum (C97)
-/

namespace Rbfopt

variable {O : Type}

/-- The black box computes the function `f`: at every feasible point of the user's problem the answer is
`f x`, whatever was called before; and values supplied by the user for initial points are those of `f`. -/
structure Computes (P : Params) (env : Env O) (eps : ℚ) (vars : List Var) (f : Pt → ℚ) : Prop where
  eval : ∀ before x, FeasibleUser eps vars x → env.evalAcc before x = f x
  user : ∀ p v, UserGave P p v → v = f (env.decode p)

/-- The run of an algorithm object on the user's problem with the samples and search steps of the code
(see `C17_whole_run` for the single conditions). -/
structure CodeRun (P : Params) (env : Env O) (eps : ℚ) (vars : List Var) (sc : Scaling) (C : InitCfg) :
    Prop where
  wellFormed : WellFormed vars
  runs : RunsOn P env eps vars sc
  scaling : sc = .off ∨ (construct eps vars).intVars = []
  dim : 0 < (construct eps vars).dim
  steps : StepsComputed env (stepProblem sc (construct eps vars))
  samples : SamplesComputed env C (construct eps vars)
  dist : ∀ p, C.dist p p = 0
  strategy : C.strategy.isLhd = true ∨ (construct eps vars).expansion = []
  init : ∀ p ∈ P.initPos, FeasibleInternal (construct eps vars) p

variable {P : Params} {env : Env O} {o : O} {eps : ℚ} {vars : List Var} {sc : Scaling} {C : InitCfg}
  {s : Alg O} {f : Pt → ℚ}

/-- Every accurate call in the list of calls is an evaluation of `f` at a feasible point. -/
theorem CodeRun.call (hc : CodeRun P env eps vars sc C) (hf : Computes P env eps vars f) {c : Ctl}
    (h : Reach P env o c s) {x : Pt} {v : ℚ} (hx : Call.acc x v ∈ s.log) :
    FeasibleUser eps vars x ∧ v = f x := by
  have hfeas := (C17_whole_run hc.wellFormed hc.runs hc.scaling hc.dim hc.steps hc.samples hc.dist
    hc.strategy hc.init h).1 _ hx
  obtain ⟨k, hk⟩ := List.mem_iff_getElem?.mp hx
  have hv : v = env.evalAcc (s.log.take k) x := C01_values_are_answers h k _ hk
  exact ⟨hfeas, by rw [hv]; exact hf.eval _ x hfeas⟩

/-- **C97** For a black box without `evaluate_noisy()` that computes a function `f`: the value returned by
`optimize()` is the value of `f` at a feasible point of the user's problem, namely the point returned or one
that the algorithm identifies with it because they are less than `eps_zero` apart.  So it is never below a lower
bound of `f`, and it is at most the value of `f` at every point that was evaluated, all of which are
feasible. -/
theorem C97_value_is_attained (hP : P.twoPhase = false) (hd : ∀ p, env.dist p p = 0) (hm : 0 ≤ P.minDist)
    (hc : CodeRun P env eps vars sc C) (hf : Computes P env eps vars f) {fuel pause : ℕ} {r : OptResult O}
    (hr : Reach P env o .idle s) (h : optimize P env fuel pause s = .ret r) :
    (∃ q, NearChain env P.epsZero r.point q ∧ FeasibleUser eps vars (env.decode q) ∧
      f (env.decode q) = r.value) ∧
    (∀ m, (∀ x, FeasibleUser eps vars x → m ≤ f x) → m ≤ r.value) ∧
    (∀ call ∈ r.final.log, FeasibleUser eps vars call.point ∧ r.value ≤ f call.point) := by
  have hr' := optimize_reach hr h
  have key : ∃ q, NearChain env P.epsZero r.point q ∧ FeasibleUser eps vars (env.decode q) ∧
      f (env.decode q) = r.value := by
    obtain ⟨q, hq, hsrc⟩ := C01_returned_value_is_genuine hP hr h
    refine ⟨q, hq, ?_⟩
    rcases hsrc with hev | hug
    · obtain ⟨h1, h2⟩ := hc.call hf hr' hev
      exact ⟨h1, h2.symm⟩
    · refine ⟨?_, (hf.user _ _ hug).symm⟩
      obtain ⟨i, hi, -⟩ := hug
      rw [hc.runs.decode]
      exact ((C30_bijection (eps := eps) hc.wellFormed).2 q
        (hc.init q (List.mem_of_getElem? hi))).1
  refine ⟨key, fun m hm' => ?_, fun call hcall => ?_⟩
  · obtain ⟨q, -, h1, h2⟩ := key
    rw [← h2]; exact hm' _ h1
  · have hle := C01_returns_best_evaluation hP hd hm hr h call hcall
    cases call with
    | acc x v =>
      obtain ⟨h1, h2⟩ := hc.call hf hr' hcall
      refine ⟨h1, ?_⟩
      rw [show (Call.acc x v).point = x from rfl, ← h2]
      exact hle
    | noisy x v el eu =>
      exfalso
      have h0 := (C07_no_noisy_call_unless_declared hP hr').1
      rw [countNoisy, List.countP_eq_zero] at h0
      exact h0 _ hcall rfl

/-- No limit made the call end: not the pause, the iterations, the evaluations, the size of the search space,
the cycles or the clock. -/
def NoLimitReached (P : Params) (env : Env O) (s : Alg O) (pause : ℕ) (r : OptResult O) : Prop :=
  r.itercount < s.itercount + pause ∧ r.itercount < P.maxIter ∧ r.evalcount < P.maxEval ∧
  ((r.evalcount : ℚ) : EVal) < P.searchSpace ∧ r.final.cyc < (P.maxCycles : ℤ) ∧
  ∀ s' : Alg O, r.final = { s' with elapsed := r.final.elapsed } → ((env.clock s' : ℚ) : EVal) < P.maxClock

/-- **C97** If no limit ended the run, and the target is within `tol` of the minimum `m` of `f` over the
feasible points, then the value returned is within `tol + eps_opt` (relative to the target, if that is not
tiny) of the minimum. -/
theorem C97_success_is_near_optimal (hP : P.twoPhase = false) (hd : ∀ p, env.dist p p = 0)
    (hm : 0 ≤ P.minDist) (hz : 0 < P.epsZero) (hc : CodeRun P env eps vars sc C)
    (hf : Computes P env eps vars f) {fuel pause : ℕ} {r : OptResult O} (hr : Reach P env o .idle s)
    (h : optimize P env fuel pause s = .ret r) (hlim : NoLimitReached P env s pause r) {m tol : ℚ}
    (hmin : ∀ x, FeasibleUser eps vars x → m ≤ f x) (htol : P.target ≤ m + tol) :
    m ≤ r.value ∧
      r.value ≤ m + tol + P.epsOpt * (if P.epsZero ≤ |P.target| then |P.target| else 1) := by
  refine ⟨(C97_value_is_attained hP hd hm hc hf hr h).2.1 m hmin, ?_⟩
  obtain ⟨l1, l2, l3, l4, l5, l6⟩ := hlim
  rcases C12_stop_reason hP hd hm hz hr h with g | g | g | g | g | ⟨s', g1, g2⟩ | g
  · omega
  · omega
  · omega
  · exact absurd l4 (not_lt.mpr g)
  · omega
  · exact absurd (l6 s' g1) (not_lt.mpr g2)
  · linarith

/-- The point as the coordinates of a bundled test function. -/
noncomputable def coords (n : ℕ) (x : Pt) : Fin n → ℝ := fun i => ((x.getD i 0 : ℚ) : ℝ)

/-- The black box returns the values of the bundled function up to `δ` (rounding), and the target is the
declared optimal value up to `δ`. -/
structure RunsTest {n : ℕ} (T : BundledFn n) (δ : ℝ) (P : Params) (env : Env O) (eps : ℚ) (f : Pt → ℚ) :
    Prop where
  eval : ∀ x, FeasibleUser eps (List.ofFn T.vars) x → ∀ v, T.eval (coords n x) = some v → |(f x : ℝ) - v| ≤ δ
  target : |(P.target : ℝ) - T.optVal| ≤ δ

/-- Feasibility for the engine is feasibility for the test function. -/
theorem feasible_bundled {n : ℕ} {T : BundledFn n} {x : Pt} (hw : WellFormed (List.ofFn T.vars))
    (h : FeasibleUser eps (List.ofFn T.vars) x) : T.Feasible (coords n x) := by
  intro i
  have hlen : x.length = n := by rw [← h.length_eq]; simp
  have hv : (List.ofFn T.vars)[(i : ℕ)]? = some (T.vars i) := by simp
  have hx : x[(i : ℕ)]? = some x[(i : ℕ)] := List.getElem?_eq_getElem (by omega)
  have hi : (T.vars i).Feasible eps x[(i : ℕ)] := by
    have := (List.forall₂_iff_get.mp h).2 i (by simp) (by omega)
    simpa using this
  have hwi := hw (T.vars i) (List.mem_of_getElem? hv)
  have hc : coords n x i = ((x[(i : ℕ)] : ℚ) : ℝ) := by
    unfold coords
    rw [List.getD_eq_getElem?_getD, hx]
    rfl
  rw [hc]
  have hq : (T.vars i).lower ≤ x[(i : ℕ)] ∧ x[(i : ℕ)] ≤ (T.vars i).upper ∧
      ((T.vars i).type ≠ .R → IsInt x[(i : ℕ)]) := by
    unfold Var.Feasible at hi
    split at hi
    · rw [hi]
      exact ⟨le_refl _, hwi.1, fun ht => (hwi.2 ht).1⟩
    · exact hi
  refine ⟨by exact_mod_cast hq.1, by exact_mod_cast hq.2.1, fun ht => ?_⟩
  obtain ⟨k, hk⟩ := hq.2.2 ht
  exact ⟨k, by rw [hk]; norm_cast⟩

/-- **C97** (test interface) A run on one of the bundled functions whose declared optimum is correct
up to `tol` (C88), with the declared optimal value as target: the value returned is at least the declared optimum
up to `tol` and rounding; and if no limit ended the run, it exceeds the declared optimum by at most `eps_opt`
and rounding. -/
theorem C97_test_function {n : ℕ} {T : BundledFn n} {tol δ : ℝ} (hT : T.OptimumIs tol)
    (hP : P.twoPhase = false) (hd : ∀ p, env.dist p p = 0) (hm : 0 ≤ P.minDist) (hz : 0 < P.epsZero)
    (hc : CodeRun P env eps (List.ofFn T.vars) sc C) (hf : Computes P env eps (List.ofFn T.vars) f)
    (ht : RunsTest T δ P env eps f) {fuel pause : ℕ} {r : OptResult O} (hr : Reach P env o .idle s)
    (h : optimize P env fuel pause s = .ret r) :
    T.optVal - tol - δ ≤ (r.value : ℝ) ∧
    (NoLimitReached P env s pause r →
      (r.value : ℝ) ≤ T.optVal + δ + P.epsOpt * (if P.epsZero ≤ |P.target| then |P.target| else 1 : ℚ)) := by
  obtain ⟨⟨q, -, hq, hv⟩, -, -⟩ := C97_value_is_attained hP hd hm hc hf hr h
  constructor
  · have hfeas := feasible_bundled hc.wellFormed hq
    obtain ⟨v, hev⟩ := hT.total _ hfeas
    have h1 := hT.least _ hfeas v hev
    have h2 := (abs_le.mp (ht.eval _ hq v hev)).1
    rw [hv] at h2
    linarith
  · intro hlim
    obtain ⟨l1, l2, l3, l4, l5, l6⟩ := hlim
    have hle : r.value ≤ P.target + P.epsOpt * (if P.epsZero ≤ |P.target| then |P.target| else 1) := by
      rcases C12_stop_reason hP hd hm hz hr h with g | g | g | g | g | ⟨s', g1, g2⟩ | g
      · omega
      · omega
      · omega
      · exact absurd l4 (not_lt.mpr g)
      · omega
      · exact absurd (l6 s' g1) (not_lt.mpr g2)
      · exact g
    have h3 : (r.value : ℝ) ≤ P.target + P.epsOpt * ((if P.epsZero ≤ |P.target| then |P.target| else 1 : ℚ) : ℝ) := by
      exact_mod_cast hle
    have h4 := (abs_le.mp ht.target).2
    linarith

end Rbfopt
