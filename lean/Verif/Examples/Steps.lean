import Verif.Props.EndToEnd
import Verif.Examples.Demo

/-!
# A run with the steps of the code: one real and one categorical variable

All hypotheses of `C78`, `C79` and `C17_whole_run` hold for it.
-/

namespace Rbfopt.StepDemo

open Rbfopt.Demo

def vars : List Var := [⟨0, 10, .R⟩, ⟨0, 2, .C⟩]

abbrev J : Internal := construct (1/1000000) vars

theorem J_eq : J =
    { dim := 4, lower := [0, 0, 0, 0], upper := [10, 1, 1, 1], intVars := [1, 2, 3],
      categorical := [1], notCategorical := [0], expansion := [(1, 0, [1, 2, 3])], fixed := [] } := by
  decide +kernel

theorem vars_wf : WellFormed vars := by decide +kernel

def dist1n (p q : Pt) : ℚ := (List.zipWith (fun a b => |a - b|) p q).sum

/-- A row of random numbers, different in each iteration. -/
def row (k : ℕ) : Pt := [((k % 19 : ℕ) + 1 : ℚ) / 20, 1/2]

def draws (k : ℕ) : SearchDraws :=
  { initial := (List.range 16).map row, gens := [], last := List.range 16, samples := [row k],
    solver := .failed }

def zeros : List Pt → List EVal := fun pts => pts.map (fun _ => ((0 : ℚ) : EVal))

def target : TargetCfg :=
  { gutmann := false, numGlobalSearches := 5, targetvalClipping := false, nInit := 3,
    epsZero := 1/1000000, localSearchThreshold := 1/4, localSearchBoxScaling := 1/2 }

def local_ : LocalCfg := { target := target, epsImpr := 1/1000, minDist := 1/1000 }

/-- In even iterations the solver minimizes the RBF at a point that is almost one-hot. -/
def solver (k : ℕ) : SolverOutcome :=
  if k % 2 = 0 then .optimal [4, 1/10, 9/10, 0] else .failed

def refData : RefData :=
  { h := [1, 0, 0, 0], b := 0, rankDeficient := false, qr := ⟨0, [], []⟩, better := fun _ => false,
    improvingDraws := [], gradNorm := 1, stepLength := 3/7, firstDraws := [1/2],
    roundDraws := [([1/2], [1/2])] }

def search (s : Alg ℕ) : Except PyErr (Option Pt) :=
  if s.itercount % 2 = 0 then auxSearch J .sampling 0 zeros (draws s.itercount)
  else globalStep target .sampling 0 J s.cur.pos 0 [] 0 1 5 (fun _ => 0) .failed (fun _ => zeros)
    (draws s.itercount)

def localSearch (s : Alg ℕ) : Except PyErr LocalSearchOut :=
  localSearchPoint local_ .sampling 0 J s.cur.pos 0 0 1 (fun _ => -1) (solver s.itercount)
    (fun _ => zeros) (draws s.itercount)

def refine (s : Alg ℕ) : Except PyErr (Option Pt × ℚ × ℕ) :=
  refinementStepFn (1/1000000) (1/1000) J dist1n s.cur.pos s.refSet s.refIter s.refRadius refData

def lhs : TrialDraw :=
  { bits := [], lhs := [{ perm := fun j i => if j = 0 then i else 4 - i, noise := fun _ _ => 1/2 }] }

def initCfg : InitCfg :=
  { strategy := .lhdMaximin, numCpus := 1, sampleFraction := 1, increaseParallel := 1/2,
    midpoint := true, minDist := 1/100000, maxRandomInit := 5, dist := dist1n, score := fun _ => 0,
    independent := fun _ => true }


def initial (s : Alg ℕ) : Except PyErr (List Pt × ℕ) :=
  match initializeNodes initCfg J (fun _ => lhs) with
  | some (.ok pts) => .ok (pts, s.opq)
  | some (.error e) => .error e
  | none => .error .runtimeError

def P : Params :=
  { Demo.P with n := 4, lLower := [0, 0, 0, 0], lUpper := [10, 1, 1, 1], maxIter := 9, refFreq := 2 }

def env : Env ℕ :=
  { Demo.env with
    dist := dist1n
    decode := decodePt J
    evalAcc := fun _ x => (x.headD 0 - 3)^2 + x.getD 1 0
    initNodes := initial
    search := fun s => match search s with
      | .error e => .error e
      | .ok p => .ok (p, s.opq)
    localSearch := fun s => match localSearch s with
      | .error e => .error e
      | .ok out => .ok (⟨out.adjusted, out.next, none, false, []⟩, s.opq)
    refStep := fun s => match refine s with
      | .error e => .error e
      | .ok (p, m, r) => .ok (⟨p, m, r, false⟩, s.opq)
    restCand := fun _ _ => roundInts J.intVars (match auxSearch J .genetic 0 zeros (draws 0) with
      | .ok (some p) => p
      | _ => []) }

theorem run_calls : ((optimize P env 40 100 (Alg.init P 0)).result?.map
    (fun r => r.final.log.map Call.point)) = some [[1, 2], [3, 2], [5, 1], [7, 0], [9, 0], [1/2, 1],
      [53/200, 1], [4, 1], [53/100, 1], [5/2, 1], [159/200, 1], [29/14, 1], [23/14, 1], [17/14, 1]] := by
  decide +kernel

theorem J_step : stepProblem .off J = J := rfl

theorem workDim_box (lo up : Pt) : workDim (J.withBox lo up) = 2 := by
  unfold workDim workBox
  rw [J_eq]
  simp only [Internal.withBox, List.cons_ne_self, reduceCtorEq, if_false]
  unfold compressBounds
  simp [length_scatter]

theorem row_unit (k : ℕ) : UnitRow 2 (row k) := by
  refine ⟨rfl, fun x hx => ?_⟩
  simp only [row, List.mem_cons, List.not_mem_nil, or_false] at hx
  rcases hx with rfl | rfl
  · have h : ((k % 19 : ℕ) : ℚ) ≤ 18 := by exact_mod_cast (by omega : k % 19 ≤ 18)
    have h0 : (0 : ℚ) ≤ ((k % 19 : ℕ) : ℚ) := by positivity
    constructor
    · positivity
    · rw [div_lt_one (by norm_num)]; linarith
  · norm_num

theorem zeros_length (pts : List Pt) : (zeros pts).length = pts.length := by simp [zeros]

theorem sampling_ok (lo up : Pt) (k : ℕ) :
    SearchDrawsOk (J.withBox lo up) .sampling 0 zeros (draws k) := by
  refine ⟨by simp [draws], fun u hu => ?_⟩
  rw [workDim_box]
  simp only [draws, List.mem_singleton] at hu
  subst hu; exact row_unit k

theorem genetic_ok : SearchDrawsOk J .genetic 0 zeros (draws 0) := by
  refine ⟨by rw [J_eq]; rfl, fun u hu => ?_, ⟨1, trivial⟩, fun pop hp => ?_⟩
  · have : workDim J = 2 := workDim_box J.lower J.upper
    rw [this]
    simp only [draws, List.mem_map] at hu
    obtain ⟨k, -, rfl⟩ := hu
    exact row_unit k
  · cases hp
    refine ⟨by simp [zeros, draws], List.pairwise_iff_forall_sublist.mpr fun {i j} _ a b ha hb => ?_⟩
    have h : ∀ x ∈ zeros ((draws 0).initial.map (samplePoint J)), x = ((0 : ℚ) : EVal) := by
      intro x hx
      simp only [zeros, List.mem_map] at hx
      obtain ⟨-, -, rfl⟩ := hx; rfl
    rw [h a (List.mem_of_getElem? ha), h b (List.mem_of_getElem? hb)]

theorem solver_ok (k : ℕ) : SolverPointOk J (solver k) := by
  intro x hx
  unfold solver at hx
  split at hx
  · cases hx
    refine ⟨[4, 0, 1, 0], ?_, rfl, ?_⟩
    · rw [J_eq]
      refine ⟨rfl, ?_, ?_, ?_, ?_⟩
      · simp only [List.forall₂_cons, List.forall₂_nil_left_iff]; norm_num
      · simp only [List.forall₂_cons, List.forall₂_nil_left_iff]; norm_num
      · intro i hi
        simp only [List.mem_cons, List.not_mem_nil, or_false] at hi
        rcases hi with rfl | rfl | rfl
        · exact ⟨0, by norm_num⟩
        · exact ⟨1, by norm_num⟩
        · exact ⟨0, by norm_num⟩
      · intro e he
        simp only [List.mem_singleton] at he
        subst he
        exact ⟨1, by decide +kernel, by decide +kernel⟩
    · rw [J_eq]; decide +kernel
  · cases hx

theorem refData_ok : RefDataOk refData := by
  refine ⟨by simp [refData], ?_, ?_⟩
  · intro u hu
    simp only [refData, List.mem_singleton] at hu
    subst hu; norm_num
  · intro ds hds u hu
    simp only [refData, List.mem_singleton] at hds
    subst hds
    simp only [List.mem_singleton] at hu
    subst hu; norm_num

theorem global_ok (nodes : List Pt) (k : ℕ) : GlobalStepOk target .sampling 0 J nodes 0 [] 0 1 5
    (fun _ => 0) .failed (fun _ => zeros) (draws k) :=
  ⟨by norm_num [target], (fun x hx => by cases hx), fun _ => zeros_length, fun r _ => sampling_ok _ _ k⟩

theorem local_ok (nodes : List Pt) (k : ℕ) : LocalStepOk local_ .sampling 0 J nodes 0 0 (fun _ => -1)
    (solver k) (fun _ => zeros) (draws k) :=
  ⟨by norm_num [local_, target], solver_ok k, fun _ => zeros_length, fun _ _ _ => sampling_ok _ _ k⟩

theorem steps_ok : StepsComputed env (stepProblem .off J) := by
  rw [J_step]
  refine ⟨fun s p o h => ?_, fun s lp o h => ?_, fun s rp o h => ?_, fun s i => ?_⟩
  · simp only [env] at h
    split at h
    · cases h
    · rename_i p' hs
      cases h
      unfold search at hs
      split at hs
      · exact .inl ⟨_, _, _, _, zeros_length, sampling_ok J.lower J.upper _, hs⟩
      · exact .inr ⟨_, _, _, _, _, _, _, _, _, _, _, _, global_ok _ _, hs⟩
  · simp only [env] at h
    split at h
    · cases h
    · rename_i out hs
      cases h
      exact ⟨_, _, _, _, _, _, _, _, _, _, out, local_ok _ _, hs, rfl, rfl⟩
  · simp only [env] at h
    split at h
    · cases h
    · rename_i p m r hs
      cases h
      cases hst : s.cur.pos[s.refIter]? with
      | none =>
        unfold refine refinementStepFn at hs
        rw [hst] at hs
        cases hs
      | some start =>
        exact ⟨1/1000000, 1/1000, refData, start, by norm_num, rfl, refData_ok, by rw [J_eq]; rfl, rfl,
          hs⟩
  · obtain ⟨p, hp⟩ := (C78_pure_global_step (sc := .off) vars_wf (.inl rfl) (by change 0 < J.dim; rw [J_eq]; decide)
      zeros_length genetic_ok).2.1 (by simp)
    refine ⟨0, zeros, draws 0, p, zeros_length, genetic_ok, hp, ?_⟩
    simp only [env]
    rw [J_step] at hp
    rw [hp]

theorem samples_ok : SamplesComputed env initCfg J := by
  intro s pts o h
  refine ⟨fun _ => lhs, fun _ => ⟨by simp [lhs], fun l hl => ?_⟩, ?_⟩
  · simp only [lhs, List.mem_singleton] at hl
    subst hl
    have h1 : sampleDim initCfg J = 2 := by decide +kernel
    have h2 : numInitSamples initCfg J.lower.length = 5 := by decide +kernel
    rw [h1, h2]
    refine ⟨by decide +kernel, fun _ _ _ _ => by norm_num⟩
  · simp only [env, initial] at h
    split at h
    · rename_i pts' he
      cases h; exact he
    · cases h
    · cases h

theorem runs_on : RunsOn P env (1/1000000) vars .off := by
  refine ⟨?_, ?_, ?_, ?_, ?_⟩
  · change _ = J.lower; rw [J_eq]; rfl
  · change _ = J.upper; rw [J_eq]; rfl
  · intro p; simp [transformDomain, env, Demo.env]
  · intro p; simp [transformDomain, env, Demo.env]
  · intro p; rfl

/-- `C17_whole_run` applies to every state of the run, which makes the 14 evaluations listed in
`run_calls`. -/
example {c : Ctl} {s : Alg ℕ} (h : Reach P env 0 c s) :
    ∀ call ∈ s.log, FeasibleUser (1/1000000) vars call.point :=
  (C17_whole_run vars_wf runs_on (.inl rfl) (by change 0 < J.dim; rw [J_eq]; decide) steps_ok samples_ok
    (fun p => by
      show dist1n p p = 0
      unfold dist1n
      induction p with
      | nil => rfl
      | cons a p ih => simp)
    (.inl rfl) (by simp [P, Demo.P]) h).1

end Rbfopt.StepDemo
