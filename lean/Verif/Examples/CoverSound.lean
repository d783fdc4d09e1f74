import Verif.Props.CoverSound
import Verif.Examples.Steps
import Verif.Examples.Serial

/-!
# C104 on a concrete run: an integer variable from 0 to 3, exact search steps
-/

namespace Rbfopt.CoverDemo

open Rbfopt.Demo
open Rbfopt.StepDemo (zeros zeros_length)

def vars : List Var := [⟨0, 3, .I⟩]

abbrev J : Internal := construct (1/1000000) vars

theorem J_eq : J =
    { dim := 1, lower := [0], upper := [3], intVars := [0], categorical := [], notCategorical := [0],
      expansion := [], fixed := [] } := by decide +kernel

theorem vars_wf : WellFormed vars := by decide +kernel

/-- The points of the search space. -/
def pts : List Pt := (List.range 4).map (fun i : ℕ => [(i : ℚ)])

/-- The one farthest from the nodes. -/
def farthest (nodes : List Pt) : Pt :=
  match argmaxVal (pts.map (fun x => (getMinDistance dist1 x nodes).getD 0)) with
  | some (_, i) => pts.getD i [0]
  | none => [0]

def draws0 : SearchDraws :=
  { initial := List.replicate 4 [1/2], gens := [], last := List.range 4, samples := [], solver := .failed }

/-- The solver finds the farthest point. -/
def drawsAt (nodes : List Pt) : SearchDraws := { draws0 with solver := .optimal (farthest nodes) }

def initCfg : InitCfg :=
  { strategy := .allCorners, numCpus := 1, sampleFraction := 1, increaseParallel := 1/2,
    midpoint := false, minDist := 1/100000, maxRandomInit := 5, dist := dist1, score := fun _ => 0,
    independent := fun _ => true }

def noTrial : TrialDraw := { bits := [], lhs := [] }

def initial (s : Alg ℕ) : Except PyErr (List Pt × ℕ) :=
  match initializeNodes initCfg J (fun _ => noTrial) with
  | some (.ok pts) => .ok (pts, s.opq)
  | some (.error e) => .error e
  | none => .error .runtimeError

/-- No local search, no refinement. -/
def P : Params := { Demo.P with doLocal := false, refFreq := 1000, maxIter := 30, lUpper := [3] }

def objective (x : Pt) : ℚ := (x.headD 0 - 2) ^ 2 + 1

def env : Env ℕ :=
  { Demo.env with
    decode := decodePt J
    evalAcc := fun _ x => objective x
    initNodes := initial
    search := fun s => match auxSearch J .solver 0 zeros (drawsAt s.cur.pos) with
      | .error e => .error e
      | .ok p => .ok (p, s.opq)
    localSearch := fun _ => .error .runtimeError
    refStep := fun _ => .error .runtimeError
    restCand := fun _ _ => roundInts J.intVars (match auxSearch J .genetic 0 zeros draws0 with
      | .ok (some p) => p
      | _ => []) }

theorem feasible_iff (p : Pt) : FeasibleInternal J p ↔ p ∈ pts := by
  constructor
  · intro h
    have hl : p.length = 1 := by rw [h.length, J_eq]
    obtain ⟨a, rfl⟩ := List.length_eq_one_iff.mp hl
    have h1 := h.lower
    have h2 := h.upper
    have h3 := h.integral 0 (by rw [J_eq]; simp)
    rw [J_eq] at h1 h2
    simp only [List.forall₂_cons, List.forall₂_nil_left_iff, and_true] at h1 h2
    obtain ⟨z, hz⟩ := h3
    have hz' : a = (z : ℚ) := by simpa using hz
    subst hz'
    have h1' : (0 : ℤ) ≤ z := by exact_mod_cast h1
    have h2' : z ≤ 3 := by exact_mod_cast h2
    interval_cases z <;> decide +kernel
  · intro h
    have h' : p = [0] ∨ p = [1] ∨ p = [2] ∨ p = [3] := by
      have e : pts = [[0], [1], [2], [3]] := by decide +kernel
      rw [e] at h
      simpa using h
    rw [J_eq]
    rcases h' with rfl | rfl | rfl | rfl
    · exact ⟨rfl, .cons (by norm_num) .nil, .cons (by norm_num) .nil,
        fun i hi => by rw [List.mem_singleton.mp hi]; exact ⟨0, by norm_num⟩, fun e he => by cases he⟩
    · exact ⟨rfl, .cons (by norm_num) .nil, .cons (by norm_num) .nil,
        fun i hi => by rw [List.mem_singleton.mp hi]; exact ⟨1, by norm_num⟩, fun e he => by cases he⟩
    · exact ⟨rfl, .cons (by norm_num) .nil, .cons (by norm_num) .nil,
        fun i hi => by rw [List.mem_singleton.mp hi]; exact ⟨2, by norm_num⟩, fun e he => by cases he⟩
    · exact ⟨rfl, .cons (by norm_num) .nil, .cons (by norm_num) .nil,
        fun i hi => by rw [List.mem_singleton.mp hi]; exact ⟨3, by norm_num⟩, fun e he => by cases he⟩

theorem farthest_mem (nodes : List Pt) : farthest nodes ∈ pts := by
  unfold farthest
  split
  · rename_i i hx
    obtain ⟨hi, -, -⟩ := argmaxVal_some hx
    rw [List.getElem?_map] at hi
    obtain ⟨p, hp, -⟩ := Option.map_eq_some_iff.mp hi
    rw [List.getD_eq_getElem?_getD, hp]
    exact List.mem_of_getElem? hp
  · decide +kernel

theorem search_eq (nodes : List Pt) :
    auxSearch J .solver 0 zeros (drawsAt nodes) = .ok (some (farthest nodes)) := by
  have h : ∀ x ∈ pts, solverSearch J.intVars (.optimal x) = .ok (some x) := by decide +kernel
  exact h _ (farthest_mem nodes)

theorem dist1_self (p : Pt) : dist1 p p = 0 := by simp [dist1]

theorem workDim_J : workDim J = 1 := by
  unfold workDim workBox
  rw [J_eq]
  simp

theorem genetic_ok : SearchDrawsOk J .genetic 0 zeros draws0 := by
  refine ⟨by rw [J_eq]; rfl, fun u hu => ?_, ⟨1, trivial⟩, fun pop hp => ?_⟩
  · rw [workDim_J]
    rw [List.eq_of_mem_replicate hu]
    exact ⟨rfl, fun x hx => by rw [List.mem_singleton.mp hx]; norm_num⟩
  · cases hp
    refine ⟨by simp [zeros, draws0], List.pairwise_iff_forall_sublist.mpr fun {i j} _ a b ha hb => ?_⟩
    have h : ∀ x ∈ zeros (draws0.initial.map (samplePoint J)), x = ((0 : ℚ) : EVal) := by
      intro x hx
      simp only [zeros, List.mem_map] at hx
      obtain ⟨-, -, rfl⟩ := hx; rfl
    rw [h a (List.mem_of_getElem? ha), h b (List.mem_of_getElem? hb)]

theorem steps_ok : StepsComputed env (stepProblem .off J) := by
  have hJ : stepProblem .off J = J := rfl
  rw [hJ]
  refine ⟨fun s p o h => ?_, fun s lp o h => (by cases (show (Except.error PyErr.runtimeError : Except PyErr (LocalProposal × ℕ)) = .ok (lp, o) from h)), fun s rp o h => (by cases (show (Except.error PyErr.runtimeError : Except PyErr (RefProposal × ℕ)) = .ok (rp, o) from h)), fun s i => ?_⟩
  · left
    simp only [env, search_eq] at h
    cases h
    refine ⟨.solver, 0, zeros, drawsAt s.cur.pos, zeros_length, ?_, search_eq _⟩
    intro x hx
    cases hx
    have hf := (feasible_iff _).mpr (farthest_mem s.cur.pos)
    refine ⟨_, hf, ?_⟩
    refine ⟨rfl, fun i _ => ?_⟩
    split
    · rw [sub_self, abs_zero]; norm_num
    · rfl
  · obtain ⟨p, hp⟩ := (C78_pure_global_step (sc := .off) vars_wf (.inl rfl)
      (by change 0 < J.dim; rw [J_eq]; decide) zeros_length genetic_ok).2.1 (by simp)
    refine ⟨0, zeros, draws0, p, zeros_length, genetic_ok, hp, ?_⟩
    simp only [env]
    rw [hJ] at hp
    rw [hp]

theorem code_run : CodeRun P env (1/1000000) vars .off initCfg where
  wellFormed := vars_wf
  runs := by
    refine ⟨?_, ?_, ?_, ?_, ?_⟩
    · change _ = J.lower; rw [J_eq]; rfl
    · change _ = J.upper; rw [J_eq]; rfl
    · intro p; simp [transformDomain, env, Demo.env]
    · intro p; simp [transformDomain, env, Demo.env]
    · intro p; rfl
  scaling := .inl rfl
  dim := by change 0 < J.dim; rw [J_eq]; decide
  steps := steps_ok
  samples := by
    intro s pts o h
    refine ⟨fun _ => noTrial, fun _ => ⟨by simp [noTrial], by simp [noTrial]⟩, ?_⟩
    simp only [env, initial] at h
    split at h
    · rename_i pts' he
      cases h; exact he
    · cases h
    · cases h
  dist := dist1_self
  strategy := .inr (by change J.expansion = []; rw [J_eq])
  init := by simp [P, Demo.P]

theorem computes : Computes P env (1/1000000) vars objective where
  eval := fun _ _ _ => rfl
  user := by
    rintro p v ⟨i, hi, -⟩
    simp [P, Demo.P] at hi

theorem dist_int {x q : Pt} (hx : x ∈ pts) (hq : q ∈ pts) (h : dist1 x q < 1) : x = q := by
  have key : ∀ x ∈ pts, ∀ q ∈ pts, dist1 x q < 1 → x = q := by decide +kernel
  exact key x hx q hq h

theorem identified : IdentifiedWithin P env J objective 0 :=
  .of_sep fun p q hp hq h => dist_int ((feasible_iff p).mp hp) ((feasible_iff q).mp hq)
    (lt_trans h (by norm_num [P, Demo.P]))

theorem farthest_search : FarthestSearch env {x | FeasibleInternal J x} 0 := by
  intro s res hs h
  simp only [env, search_eq] at h
  cases h
  generalize s.cur.pos = nodes
  cases hx : argmaxVal (pts.map (fun x => (getMinDistance dist1 x nodes).getD 0)) with
  | none => exact absurd (List.map_eq_nil_iff.mp (argmaxVal_none.mp hx)) (by decide)
  | some vi =>
    obtain ⟨v, i⟩ := vi
    obtain ⟨a1, a2, -⟩ := argmaxVal_some hx
    rw [List.getElem?_map] at a1
    obtain ⟨p, hp, hv⟩ := Option.map_eq_some_iff.mp a1
    have hpi : farthest nodes = p := by
      unfold farthest; rw [hx]; simp only [List.getD_eq_getElem?_getD, hp, Option.getD_some]
    refine ⟨p, by simp only [hpi], (feasible_iff p).mpr (List.mem_of_getElem? hp), fun x hxm q' hq' => ?_⟩
    have hmin : ∀ y : Pt, ∃ d j, argminVal (nodes.map (dist1 y)) = some (d, j) ∧
        (getMinDistance dist1 y nodes).getD 0 = d := by
      intro y
      cases hy : argminVal (nodes.map (dist1 y)) with
      | none =>
        have := argminVal_none.mp hy
        simp only [List.map_eq_nil_iff] at this
        subst this
        cases hq'
      | some dj => exact ⟨dj.1, dj.2, rfl, by simp [getMinDistance, hy]⟩
    obtain ⟨d, j, e1, e2⟩ := hmin x
    obtain ⟨d', j', e1', e2'⟩ := hmin p
    have hle : d ≤ d' := by
      have := a2 _ (List.mem_map_of_mem (f := fun x => (getMinDistance dist1 x nodes).getD 0)
        ((feasible_iff x).mp hxm))
      rw [← hv] at this
      simpa only [e2, e2'] using this
    obtain ⟨b1, -, -⟩ := argminVal_some e1
    obtain ⟨-, b2', -⟩ := argminVal_some e1'
    rw [List.getElem?_map] at b1
    obtain ⟨q, hq, rfl⟩ := Option.map_eq_some_iff.mp b1
    refine ⟨q, List.mem_of_getElem? hq, ?_⟩
    have := b2' _ (List.mem_map_of_mem (f := dist1 p) hq')
    show dist1 x q ≤ dist1 p q' + 0
    linarith

/-- The states of the run after 0, 1, 2, … passes. -/
def run (k : ℕ) : Alg ℕ × Loc := (after P env 100 k).getD (Alg.init P 0, ⟨⊤, none⟩)

theorem run_some (k : ℕ) (h : k < 5) : after P env 100 k = some (run k) := by
  have hs : ∀ k < 5, (after P env 100 k).isSome = true := by decide +kernel
  obtain ⟨x, hx⟩ := Option.isSome_iff_exists.mp (hs k h)
  unfold run
  rw [hx]
  rfl

theorem run_pass (k : ℕ) (h : k < 4) : loopCond P env 0 100 (run k).1 (run k).2 = true ∧
    pass P env (run k).1 (run k).2 = .ok (run (k + 1)) := by
  obtain ⟨y, h1, h2, h3⟩ := after_succ (run_some (k + 1) (by omega))
  rw [run_some k (by omega)] at h1
  cases h1
  exact ⟨h2, h3⟩

/-- **C104** Non-vacuity: the InfStep in pass 3 records nothing, so all points of the search space have been
evaluated, and the best value is the minimum. -/
theorem C104_exhausted_example :
    IsInfPass P env (run 3).1 ∧ (run 4).1.cur.pos = (run 3).1.cur.pos ∧
    (run 4).1.cur.pos = [[0], [3], [1], [2]] ∧ (run 4).1.fbest = ((1 : ℚ) : EVal) ∧
    ∀ x, FeasibleInternal J x → x ∈ (run 4).1.cur.pos ∧ (run 4).1.fbest ≤ ((objective (env.decode x) : ℚ) : EVal) := by
  have hi : IsInfPass P env (run 3).1 := by
    have hb : (run 3).1.step = 0 ∧ shouldRestart P (run 3).1 = false := by decide +kernel
    exact ⟨hb.1, rfl, hb.2, fun o => rfl⟩
  have hno : (run 4).1.cur.pos = (run 3).1.cur.pos := by decide +kernel
  refine ⟨hi, hno, by decide +kernel, by decide +kernel, ?_⟩
  obtain ⟨h1, h2⟩ := run_pass 3 (by omega)
  refine C104_exhausted (o := 0) rfl (fun p => ?_) code_run computes identified farthest_search ?_
    (after_reach (run_some 3 (by omega))) h1 h2 hi hno
  · show dist1 p p ≤ _
    rw [dist1_self]; norm_num [P, Demo.P]
  · intro x q hx hq h
    exact dist_int ((feasible_iff x).mp hx) ((feasible_iff q).mp hq)
      (lt_of_le_of_lt h (by norm_num [P, Demo.P]))

/-- **C104** Non-vacuity: two InfSteps (passes 0 and 3) and one cell. -/
theorem C104_gap_example : ∀ x, FeasibleInternal J x →
    (run 4).1.fbest ≤ ((objective (env.decode x) + 4 * (max 3 P.minDist + 0) + 0 : ℚ) : EVal) := by
  refine C104_infsteps_bound_gap (o := 0) (delta := 4) (m := 4) (S := {0, 3}) (start := 0) (pause := 100)
    rfl (fun p => ?_) code_run computes identified (by norm_num) ?_ farthest_search (by norm_num) ?_ run
    (after_reach (run_some 0 (by omega))) run_pass (by decide +kernel) ?_ ?_
  · show dist1 p p ≤ _
    rw [dist1_self]; norm_num [P, Demo.P]
  · intro x q hx hq
    have key : ∀ x ∈ pts, ∀ q ∈ pts,
        objective (decodePt J q) ≤ objective (decodePt J x) + 4 * dist1 x q := by decide +kernel
    exact key x ((feasible_iff x).mp hx) q ((feasible_iff q).mp hq)
  · intro x q hx hq _
    have key : ∀ x ∈ pts, ∀ q ∈ pts, dist1 x q ≤ 3 := by decide +kernel
    exact key x ((feasible_iff x).mp hx) q ((feasible_iff q).mp hq)
  · have hb : ∀ k ∈ ({0, 3} : Finset ℕ), k < 4 ∧ (run k).1.step = 0 ∧
        shouldRestart P (run k).1 = false := by decide +kernel
    intro k hk
    obtain ⟨h1, h2, h3⟩ := hb k hk
    exact ⟨h1, h2, rfl, h3, fun o => rfl⟩
  · have : cellCount P.lLower P.lUpper 4 = 1 := by
      unfold cellCount
      simp only [P, Demo.P, List.length_singleton, Finset.prod_range_one, List.getD_cons_zero]
      have : ⌊((3 : ℚ) - 0) / 4⌋₊ = 0 := by
        rw [Nat.floor_eq_zero]
        norm_num
      rw [this]
    rw [this]
    decide

/-- **C97** The run ends after 30 iterations; the value returned is that of the point returned. -/
theorem C97_value_at_point_example : ∃ r, optimize P env 100 100 (Alg.init P 0) = .ret r ∧ r.value = 1 ∧
    r.point = [2] ∧ r.value = objective (env.decode r.point) := by
  have h : ((optimize P env 100 100 (Alg.init P 0)).result?.map (fun r => (r.value, r.point))) =
      some (1, [2]) := by decide +kernel
  cases hr : optimize P env 100 100 (Alg.init P 0) with
  | raised e => rw [hr] at h; cases h
  | outOfFuel => rw [hr] at h; cases h
  | ret r =>
    rw [hr] at h
    simp only [OptRes.result?, Option.map_some, Option.some.injEq, Prod.mk.injEq] at h
    refine ⟨r, rfl, h.1, h.2, ?_⟩
    refine (C97_value_at_returned_point (o := 0) rfl (fun p => ?_) code_run computes .init hr).2.2
      (fun p q hp hq hd => dist_int ((feasible_iff p).mp hp) ((feasible_iff q).mp hq)
        (lt_trans hd (by norm_num [P, Demo.P])))
    show dist1 p p ≤ _
    rw [dist1_self]; norm_num [P, Demo.P]

end Rbfopt.CoverDemo
