import Verif.Props.Records
import Verif.Props.Control
import Verif.Props.Restart
import Verif.Props.Resume
import Verif.Props.Pass
import Verif.Examples.Witness
import Verif.Examples.Persist

/-!
# Concrete runs that meet the hypotheses of the theorems on the serial engine

Tests, not proofs: every example instantiates the hypotheses of a theorem by a concrete run.
-/

namespace Rbfopt.Demo

/-- The state after the start of the first call and `k` passes of its loop. -/
def after (P : Params) (env : Env ℕ) (pause : ℕ) : ℕ → Option (Alg ℕ × Loc)
  | 0 => (serialStart P env (Alg.init P 0)).toOption
  | k + 1 =>
    match after P env pause k with
    | none => none
    | some (s, loc) =>
      if loopCond P env 0 pause s loc then (pass P env s loc).toOption else none

theorem toOption_some {α : Type} {x : Except PyErr α} {a : α} (h : x.toOption = some a) :
    x = .ok a := by
  cases x with
  | error e => cases h
  | ok b => cases h; rfl

theorem after_succ {P : Params} {env : Env ℕ} {pause k : ℕ} {x : Alg ℕ × Loc}
    (h : after P env pause (k + 1) = some x) :
    ∃ y, after P env pause k = some y ∧ loopCond P env 0 pause y.1 y.2 = true ∧
      pass P env y.1 y.2 = .ok x := by
  simp only [after] at h
  split at h
  · cases h
  · rename_i s loc hk
    split at h
    · rename_i hc
      exact ⟨(s, loc), hk, hc, toOption_some h⟩
    · cases h

theorem after_reach {P : Params} {env : Env ℕ} {pause k : ℕ} {x : Alg ℕ × Loc}
    (h : after P env pause k = some x) : Reach P env 0 (.running 0 pause x.2) x.1 := by
  induction k generalizing x with
  | zero => exact Reach.call pause .init (toOption_some (a := (x.1, x.2)) h)
  | succ k ih =>
    obtain ⟨y, h1, h2, h3⟩ := after_succ h
    exact (ih h1).pass h2 (loc' := x.2) h3

/-- From a computed fact to a reachable state. -/
theorem after_some {P : Params} {env : Env ℕ} {pause k : ℕ} {p : Alg ℕ × Loc → Bool}
    (h : (after P env pause k).map p = some true) :
    ∃ x, after P env pause k = some x ∧ p x = true := by
  cases hx : after P env pause k with
  | none => rw [hx] at h; cases h
  | some x => rw [hx] at h; exact ⟨x, rfl, by simpa using h⟩

theorem dist_self (p : Pt) : env.dist p p = 0 := by simp [env, dist1]

/-! ## C08 - C13 -/

example : ∃ r, optimize P env 40 3 (Alg.init P 0) = .ret r ∧ r.itercount = 3 := by
  have h : (optimize P env 40 3 (Alg.init P 0)).result?.map (fun r => r.itercount) = some 3 := by
    decide +kernel
  cases hx : optimize P env 40 3 (Alg.init P 0) with
  | ret r => rw [hx] at h; exact ⟨r, rfl, by simpa [OptRes.result?] using h⟩
  | raised e => rw [hx] at h; cases h
  | outOfFuel => rw [hx] at h; cases h

/-- C09, C10: samples have at most two points. -/
example : ∀ (s : Alg ℕ) pts o, env.initNodes s = .ok (pts, o) → pts.length ≤ 2 := by
  intro s pts o h
  cases h
  decide

/-- C10: a run that uses up the budget of noisy evaluations, `max_noisy_evaluations = 5`: two in the
sample, three in iterations. -/
example : ∃ x, after { PNw with maxNoisyEval := 5, maxIter := 8, target := -100 }
    { env with evalNoisy := fun _ x => (x.headD 0, 0, 0) } 100 6 = some x ∧ x.1.noisyEvalcount = 5 ∧
      x.1.mode = .accurate := by
  have h : (after { PNw with maxNoisyEval := 5, maxIter := 8, target := -100 }
    { env with evalNoisy := fun _ x => (x.headD 0, 0, 0) } 100 6).map
      (fun x => decide (x.1.noisyEvalcount = 5 ∧ x.1.mode = .accurate)) = some true := by
    decide +kernel
  obtain ⟨x, h1, h2⟩ := after_some h
  exact ⟨x, h1, by simpa using h2⟩

/-- C12: the hypotheses hold for the run of `Demo.run_exists`, which stops at `max_iterations`. -/
example : ∃ r, optimize P env 40 100 (Alg.init P 0) = .ret r ∧ P.maxIter ≤ r.itercount := by
  have h := run_value
  cases hx : optimize P env 40 100 (Alg.init P 0) with
  | ret r =>
    rw [hx] at h
    simp only [OptRes.result?, Option.map_some, Option.some.injEq, Prod.mk.injEq] at h
    exact ⟨r, rfl, by rw [h.2.2.1]; decide⟩
  | raised e => rw [hx] at h; cases h
  | outOfFuel => rw [hx] at h; cases h

theorem env_ignores : env.IgnoresElapsed := by
  constructor <;> intros <;> rfl

/-- C13: pausing after 2 of 4 iterations. -/
example : ∃ r, optimize P env 200 2 (Alg.init P 0) = .ret r ∧ r.itercount = 2 ∧
    SameOutcome (optimize P env 200 100 (Alg.init P 0)) (optimize P env 200 98 r.final) := by
  have h : (optimize P env 200 2 (Alg.init P 0)).result?.map (fun r => (r.itercount, r.value)) =
      some (2, 2) := by
    decide +kernel
  cases hx : optimize P env 200 2 (Alg.init P 0) with
  | ret r =>
    rw [hx] at h
    simp only [OptRes.result?, Option.map_some, Option.some.injEq, Prod.mk.injEq] at h
    refine ⟨r, rfl, h.1, ?_⟩
    exact C13_pause_resume (k := 2) (k' := 98) rfl dist_self (by norm_num [P]) (by norm_num [P]) rfl
      env_ignores (by norm_num [P]) .init hx (by omega) (by rw [h.2]; norm_num [P])
  | raised e => rw [hx] at h; cases h
  | outOfFuel => rw [hx] at h; cases h

/-! ## C16, C18 -/

/-- C16: two nodes, the second added by an iteration. -/
example : ∃ x, after P env 100 1 = some x ∧ x.1.nInit ≤ 2 ∧ x.1.cur.pos = [[0], [10], [1]] := by
  have h : (after P env 100 1).map (fun x => decide (x.1.nInit ≤ 2 ∧ x.1.cur.pos = [[0], [10], [1]])) =
      some true := by decide +kernel
  obtain ⟨x, h1, h2⟩ := after_some h
  exact ⟨x, h1, by simpa using h2⟩

/-- A restart (the model cannot be built at first), the old sample being `0, 10`. -/
def PRs : Params := { P with n := 5 }

@[inherit_doc PRs] def envO : Env ℕ :=
  { env with
    initNodes := fun s => .ok (if s.nAtRestart = 0 then [[0], [10]] else [[10], [9], [0]], s.opq)
    modelFails := fun s => (s.nAtRestart = 0, s.opq) }

/-- C18, C25: a state with old records, in accurate mode; all are accurate; point 0 is one of them. -/
example : ∃ x, after PRs envO 100 1 = some x ∧ x.1.mode = .accurate ∧ OldRecord x.1 0 [0] ∧
    (∀ b ∈ x.1.all.noisy, b = false) ∧ x.1.all.pos = [[0], [10], [9], [0], [10]] ∧
    x.1.evalcount = 3 := by
  have h : (after PRs envO 100 1).map (fun x => decide (x.1.mode = .accurate ∧
      (0 < x.1.nAtRestart ∧ x.1.all.pos[0]? = some [0]) ∧ (∀ b ∈ x.1.all.noisy, b = false) ∧
      x.1.all.pos = [[0], [10], [9], [0], [10]] ∧ x.1.evalcount = 3)) = some true := by
    decide +kernel
  obtain ⟨x, h1, h2⟩ := after_some h
  exact ⟨x, h1, by simpa [OldRecord] using h2⟩

/-- C18, C16: a pass that evaluates a point farther than `min_dist` from all nodes. -/
example : ∃ x y, after P env 100 0 = some x ∧ pass P env x.1 x.2 = .ok y ∧
    y.1.nAtRestart = x.1.nAtRestart ∧ y.1.log = x.1.log ++ [Call.acc [1] 5] ∧
    y.1.cur.pos = x.1.cur.pos ++ [[1]] := by
  have h0 : (after P env 100 0).map (fun x => decide (x.1.nAtRestart = 0 ∧
      x.1.log = [Call.acc [0] 10, Call.acc [10] 50] ∧ x.1.cur.pos = [[0], [10]])) = some true := by
    decide +kernel
  have h1 : (after P env 100 1).map (fun x => decide (x.1.nAtRestart = 0 ∧
      x.1.log = [Call.acc [0] 10, Call.acc [10] 50, Call.acc [1] 5] ∧
      x.1.cur.pos = [[0], [10], [1]])) = some true := by decide +kernel
  obtain ⟨y, b1, b2⟩ := after_some h1
  obtain ⟨x, a1, -, a3⟩ := after_succ b1
  rw [a1] at h0
  simp only [Option.map_some, Option.some.injEq, decide_eq_true_eq] at h0 b2
  exact ⟨x, y, a1, a3, by rw [h0.1, b2.1], by rw [h0.2.1, b2.2.1]; rfl, by rw [h0.2.2, b2.2.2]; rfl⟩

/-- After the restart the sample is new, and the search proposes the old point `0`. -/
def envP : Env ℕ :=
  { envO with
    initNodes := fun s => .ok (if s.nAtRestart = 0 then [[0], [10]] else [[7], [9], [8]], s.opq)
    search := fun s => .ok (some [0], s.opq + 1) }

/-- C18, C16: a pass that takes the value of an old record, without a call. -/
example : ∃ x y, after PRs envP 100 1 = some x ∧ pass PRs envP x.1 x.2 = .ok y ∧
    y.1.nAtRestart = x.1.nAtRestart ∧ y.1.log = x.1.log ∧ y.1.cur.pos = x.1.cur.pos ++ [[0]] := by
  have h0 : (after PRs envP 100 1).map (fun x => decide (x.1.nAtRestart = 2 ∧
      x.1.log.length = 5 ∧ x.1.cur.pos = [[7], [9], [8]])) = some true := by
    decide +kernel
  have h1 : (after PRs envP 100 2).map (fun x => decide (x.1.nAtRestart = 2 ∧
      x.1.log.length = 5 ∧ x.1.cur.pos = [[7], [9], [8], [0]])) = some true := by decide +kernel
  obtain ⟨y, b1, b2⟩ := after_some h1
  obtain ⟨x, a1, a2, a3⟩ := after_succ b1
  rw [a1] at h0
  simp only [Option.map_some, Option.some.injEq, decide_eq_true_eq] at h0 b2
  refine ⟨x, y, a1, a3, by rw [h0.1, b2.1], ?_, by rw [h0.2.2, b2.2.2]; rfl⟩
  rcases C18_pass (P := PRs) (env := envP) rfl dist_self (by norm_num [PRs, P]) (after_reach a1) a3
    (by rw [h0.1, b2.1]) with h | ⟨p, v, -, -, -, h | h⟩
  · exact h.1
  · have := congrArg List.length h.1
    simp [h0.2.1, b2.2.1] at this
  · exact h.1

/-! ## C21, C22 -/

/-- Refinement starts after the first local step. -/
def PF : Params := { P with refFreq := 0, maxIter := 100, maxConsRef := 3, maxEval := 1000 }

/-- State after the `k`-th pass, default if there is none. -/
def afterD (P : Params) (env : Env ℕ) (pause k : ℕ) : Alg ℕ × Loc :=
  (after P env pause k).getD (Alg.init P 0, ⟨⊤, none⟩)

theorem afterD_pass {P : Params} {env : Env ℕ} {pause k : ℕ}
    (h : (after P env pause (k + 1)).isSome = true) :
    pass P env (afterD P env pause k).1 (afterD P env pause k).2 = .ok (afterD P env pause (k + 1)) := by
  obtain ⟨x, hx⟩ := Option.isSome_iff_exists.mp h
  obtain ⟨y, h1, -, h3⟩ := after_succ hx
  simp only [afterD, h1, hx, Option.getD_some]
  exact h3

/-- Improvements that keep the radius; the refinement model uses the first two nodes. -/
def envF : Env ℕ := { env with initRef := fun s => .ok ((if 2 ≤ s.cur.pos.length then [0, 1] else [], 1), s.opq)
                               refStep := fun s => .ok (⟨some [(s.itercount : ℚ) + 1], 2, 0, false⟩, s.opq)
                               realImpr := fun _ _ => .ok 1 }

/-- C21: passes 3, 4, 5 are refinement steps, two of them stay in refinement; unlimited refinement is
not active. -/
example : (∀ i < 2, pass PF envF (afterD PF envF 100 (3 + i)).1 (afterD PF envF 100 (3 + i)).2 =
      .ok (afterD PF envF 100 (3 + (i + 1)))) ∧
    (∀ i ≤ 2, (afterD PF envF 100 (3 + i)).1.step = PF.numGlobal + 2) ∧
    (∀ i < 2, ¬ UnlimitedActive PF (afterD PF envF 100 (3 + i)).1.itercount
      (afterD PF envF 100 (3 + (i + 1))).1.evalcount (afterD PF envF 100 (3 + i)).1.elapsed
      (afterD PF envF 100 (3 + i)).1.numStalled) := by
  have h : (after PF envF 100 5).isSome = true := by decide +kernel
  have h' : (after PF envF 100 4).isSome = true := by decide +kernel
  refine ⟨?_, ?_, ?_⟩
  · intro i hi
    have : i = 0 ∨ i = 1 := by omega
    rcases this with rfl | rfl
    · exact afterD_pass h'
    · exact afterD_pass h
  · intro i hi
    have : i = 0 ∨ i = 1 ∨ i = 2 := by omega
    rcases this with rfl | rfl | rfl <;> decide +kernel
  · intro i hi
    have : i = 0 ∨ i = 1 := by omega
    unfold UnlimitedActive
    rcases this with rfl | rfl <;> decide +kernel

/-- C22: a refinement phase in progress. -/
example : ∃ x, after PF envF 100 4 = some x ∧ 0 < x.1.numCons ∧ x.1.refSet ≠ [] := by
  have h : (after PF envF 100 4).map (fun x => decide (0 < x.1.numCons ∧ x.1.refSet ≠ [])) =
      some true := by decide +kernel
  obtain ⟨x, h1, h2⟩ := after_some h
  exact ⟨x, h1, by simpa using h2⟩

/-- C22: the hypothesis on `init_refinement`. -/
example : ∀ (s : Alg ℕ) set rad o, envF.initRef s = .ok ((set, rad), o) →
    ∀ j ∈ set, j < s.cur.pos.length := by
  intro s set rad o h j hj
  simp only [envF] at h
  injection h with h
  injection h with h1 h2
  injection h1 with h1 h3
  rw [← h1] at hj
  split at hj
  · simp only [List.mem_cons, List.not_mem_nil, or_false] at hj
    omega
  · cases hj

/-! ## C23 -/

/-- C23: three iterations without improvement, no restart is due: the counter goes from 0 to 3. -/
example : ∃ x y, after P { env with evalAcc := fun _ _ => 7 } 100 0 = some x ∧
    after P { env with evalAcc := fun _ _ => 7 } 100 3 = some y ∧
    x.1.numStalled = 0 ∧ y.1.numStalled = 3 ∧ y.1.itercount = 3 := by
  have h0 : (after P { env with evalAcc := fun _ _ => 7 } 100 0).map
      (fun x => decide (x.1.numStalled = 0)) = some true := by decide +kernel
  have h3 : (after P { env with evalAcc := fun _ _ => 7 } 100 3).map
      (fun x => decide (x.1.numStalled = 3 ∧ x.1.itercount = 3)) = some true := by decide +kernel
  obtain ⟨x, a1, a2⟩ := after_some h0
  obtain ⟨y, b1, b2⟩ := after_some h3
  exact ⟨x, y, a1, b1, by simpa using a2, by simpa using b2⟩

/-- C23: a stalled run restarts (see `envG`): the 4th pass installs new nodes. -/
example : ∃ x, after { P with maxStalled := 1, threshUnlStalled := 100, maxIter := 8 } envG 100 4 =
    some x ∧ x.1.nAtRestart = 5 ∧ x.1.cur.pos = [[3], [2]] := by
  have h : (after { P with maxStalled := 1, threshUnlStalled := 100, maxIter := 8 } envG 100 4).map
      (fun x => decide (x.1.nAtRestart = 5 ∧ x.1.cur.pos = [[3], [2]])) = some true := by
    decide +kernel
  obtain ⟨x, h1, h2⟩ := after_some h
  exact ⟨x, h1, by simpa using h2⟩

/-! ## C24 -/

/-- C24: in noisy mode an iteration makes a noisy record that is the best one, with a target of -100. -/
example : ∃ x, after { PNw with target := -100, epsImpr := 1/2 }
    { env with evalNoisy := fun _ x => (10 - x.headD 0 / 100, -1/100, 1/100) } 100 1 = some x ∧
    x.1.all.noisy[2]? = some true ∧ x.1.fbestIdx = 1 ∧ x.1.evalcount = 0 := by
  have h : (after { PNw with target := -100, epsImpr := 1/2 }
    { env with evalNoisy := fun _ x => (10 - x.headD 0 / 100, -1/100, 1/100) } 100 1).map
      (fun x => decide (x.1.all.noisy[2]? = some true ∧ x.1.fbestIdx = 1 ∧ x.1.evalcount = 0)) =
      some true := by decide +kernel
  obtain ⟨x, h1, h2⟩ := after_some h
  exact ⟨x, h1, by simpa using h2⟩

/-! ## C26 -/

/-- C26: of the user's points 4, 4, 10, 6 the repetition and the sampled point 10 are dropped. -/
example : ∃ x, after { P with initPos := [[4], [4], [10], [6]], initVal := [1, 2, 3, 5] } env 100 0 =
    some x ∧ x.1.all.pos = [[0], [10], [4], [6]] ∧ x.1.all.val = [10, 50, 1, 5] := by
  have h : (after { P with initPos := [[4], [4], [10], [6]], initVal := [1, 2, 3, 5] } env 100 0).map
      (fun x => decide (x.1.all.pos = [[0], [10], [4], [6]] ∧ x.1.all.val = [10, 50, 1, 5])) =
      some true := by decide +kernel
  obtain ⟨x, h1, h2⟩ := after_some h
  exact ⟨x, h1, by simpa using h2⟩

end Rbfopt.Demo
