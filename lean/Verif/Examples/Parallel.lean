import Verif.Examples.ParallelExec
import Verif.Examples.Demo
import Verif.Props.ParallelEnd
import Verif.Props.ParallelDomain
import Verif.Props.ParallelRefine
import Verif.Props.ParallelReuse

/-!
# Concrete runs of the parallel engine

Reachable states that show that hypotheses are satisfiable and that some properties one would expect
are violated.  `C70` is stated here together with its counterexample.
-/

namespace Rbfopt

section

variable {O : Type} {P : Params} {env : Env O} {pe : PEnv O} {o : O} {c : PCtl} {s s' : PState O}

/-! ## C70: where the result of an evaluation is recorded -/

/-- **C70** When the result of an evaluation is recorded, let `x` be the point at which the black box
was evaluated.  The record is at `x`, or the evaluation is an initial one that was collected late and
the record is at the inverse scaling of `x`, although `x` was not scaled.  In both cases its value and
error interval are those the worker returned for this evaluation. -/
theorem C70_recorded_point {start pause b : ℕ} (h : PReach P env pe o (.running start pause) s)
    (hp : s.pc = .evals b) (hs : PStep P env pe start pause s s') {id : ℕ}
    (hrec : s'.hist = s.hist ++ [(id, .recorded)]) :
    ∃ (x : Pt) (noisy : Bool) (tag : Tag) (v el eu : ℚ), s.subs[id]? = some (x, noisy, tag) ∧
      (noisy = true → pe.noisyRes id = (v, el, eu)) ∧
      (noisy = false → pe.acc id = v ∧ el = 0 ∧ eu = 0) ∧
      (s'.alg.all = s.alg.all.append
          { pos := [x], val := [v], noisy := [noisy], err := [(el, eu)] } ∨
       (tag = .init ∧ s'.alg.all = s.alg.all.append
          { pos := [env.toOrig x], val := [v], noisy := [noisy], err := [(el, eu)] })) := by
  have hne : s'.evals ≠ s.evals := by
    intro he
    have h1 := (PReach.step h hs).book.ids
    have h2 := h.book.ids
    have hsub : s'.subs = s.subs := by
      cases hs with
      | collect j hp' hj =>
        unfold PState.orRaise at hrec he ⊢
        split
        · rfl
        · rename_i s1 hs1
          rw [hs1] at hrec he
          dsimp only at hrec he
          obtain ⟨job, d, hj, hd, ⟨_, tb, rfl⟩ | ⟨_, hn, _, a, ha, rfl⟩ |
            ⟨hlt, gap, a, a', rc, rb, _, hda, _, _, _, ha, _, _, rfl⟩⟩ := collectJob_cases hs1
          · rfl
          · exfalso
            simp [collectRepeat, PState.fate, PState.submitEval, PState.pushTemp, takeJob,
              PState.popTemp] at hrec
          · rfl
      | evalsDone _ => rfl
      | _ => simp_all
    have l1 := h1.length_eq
    have l2 := h2.length_eq
    unfold PState.jobIds at l1 l2
    rw [hrec, he, hsub] at l1
    simp at l1 l2
    omega
  obtain ⟨k, job, hk, hc⟩ := C60_collects_own_value hp hs hne
  have hmem := List.mem_of_getElem? hk
  obtain ⟨orig, h1, h2⟩ := h.book.jobs job hmem
  rcases hc with ⟨_, _, hh | ⟨_, hh⟩⟩ | ⟨hh, _, _, hall⟩
  · rw [hrec] at hh; simp at hh
  · rw [hrec] at hh; simp at hh
  · rw [hrec] at hh
    simp only [List.append_cancel_left_eq, List.cons.injEq, Prod.mk.injEq, and_true] at hh
    subst hh
    refine ⟨orig, job.noisy, job.tag, (jobResult pe job).1, (jobResult pe job).2.1,
      (jobResult pe job).2.2, h1, ?_, ?_, ?_⟩
    · intro hn
      simp [jobResult, hn]
    · intro hn
      simp [jobResult, hn]
    rcases h2 with h2 | ⟨h2, h3⟩
    · left; rw [h2]; exact hall
    · right; rw [h3]; exact ⟨h2, hall⟩

/-- **C70** Without domain scaling every result is recorded at the point that was evaluated. -/
theorem C70_no_scaling (hid : ∀ x, env.toOrig x = x) {start pause b : ℕ}
    (h : PReach P env pe o (.running start pause) s)
    (hp : s.pc = .evals b) (hs : PStep P env pe start pause s s') {id : ℕ}
    (hrec : s'.hist = s.hist ++ [(id, .recorded)]) :
    ∃ (x : Pt) (noisy : Bool) (tag : Tag) (v el eu : ℚ), s.subs[id]? = some (x, noisy, tag) ∧
      (noisy = true → pe.noisyRes id = (v, el, eu)) ∧
      (noisy = false → pe.acc id = v ∧ el = 0 ∧ eu = 0) ∧
      s'.alg.all = s.alg.all.append
        { pos := [x], val := [v], noisy := [noisy], err := [(el, eu)] } := by
  obtain ⟨x, noisy, tag, v, el, eu, h1, h3, h4, h2 | ⟨_, h2⟩⟩ := C70_recorded_point h hp hs hrec
  · exact ⟨x, noisy, tag, v, el, eu, h1, h3, h4, h2⟩
  · rw [hid] at h2
    exact ⟨x, noisy, tag, v, el, eu, h1, h3, h4, h2⟩

end

namespace Demo

/-- Two CPUs; the values of successive evaluations are 10, 50, 2, 5, 1, 3, 3, …. -/
def pe1 : PEnv ℕ :=
  { numCpus := 2, minInit := 2, acc := fun i => [10, 50, 2, 5, 1][i]?.getD 3
    noisyRes := fun _ => (2, -1, 1), tempVal := fun _ _ => 5, noCvList := fun _ => false }

/-- `n` control steps. -/
def ticks (n : ℕ) : List Act := List.replicate n .tick

/-- The bounds `[0, 10]` are scaled to `[0, 1]`. -/
def envS : Env ℕ :=
  { Demo.env with
    initNodes := fun s => .ok ([[0], [10], [4]], s.opq)
    toInternal := fun x => x.map (· / 10), toOrig := fun x => x.map (· * 10) }

def PS : Params := { Demo.P with lLower := [0], lUpper := [1], maxIter := 1 }

/-- The value returned by `optimize()` and the point. -/
def returned (s : PState ℕ) : Option (ℚ × Pt) := (optimizeReturn s.alg).result?.map fun r =>
  (r.value, r.point)

/-- **C70** (violation) With affine domain scaling of the box `[0, 10]`, the parallel engine reports
the point 40, outside of the box, with the value the black box returned at 4.  Three initial points
0, 10, 4 are submitted, the first two results are collected while initializing, the third one in the
main loop. -/
theorem C70_violated_scaling : ∃ s : PState ℕ, PReach PS envS pe1 0 (.running 0 100) s ∧
    s.pc = .done ∧ s.subs = [([0], false, .init), ([10], false, .init), ([4], false, .init)] ∧
    pe1.acc 2 = 2 ∧ returned s = some (2, [40]) := by
  have h : (firstCall PS envS pe1 0 100 [0, 0] ([.tick, .collect 0] ++ ticks 3)).map
      (fun s => (s.pc,
        decide (s.subs = [([0], false, .init), ([10], false, .init), ([4], false, .init)]),
        decide (returned s = some (2, [40])))) = some (.done, true, true) := by
    decide +kernel
  obtain ⟨s, _, h1, h2⟩ := firstCall_exists (fun _ => trivial) h
  simp only [Prod.mk.injEq] at h2
  exact ⟨s, h1, h2.1, of_decide_eq_true h2.2.1, rfl, of_decide_eq_true h2.2.2⟩

/-- The hypotheses of `C70_recorded_point` are met in that run. -/
theorem C70_example : ∃ (s s' : PState ℕ) (id : ℕ), PReach PS envS pe1 0 (.running 0 100) s ∧
    s.pc = .evals 0 ∧ PStep PS envS pe1 0 100 s s' ∧ s'.hist = s.hist ++ [(id, .recorded)] := by
  have h : (firstCall PS envS pe1 0 100 [0, 0] [.tick]).map
      (fun s => (s.pc, (exec PS envS pe1 0 100 s (.collect 0)).map
        (fun s' => decide (s'.hist = s.hist ++ [(2, .recorded)])))) = some (.evals 0, some true) := by
    decide +kernel
  obtain ⟨s, _, h1, h2⟩ := firstCall_exists (fun _ => trivial) h
  simp only [Prod.mk.injEq] at h2
  obtain ⟨h2, h3⟩ := h2
  rw [Option.map_eq_some_iff] at h3
  obtain ⟨s', h3, h4⟩ := h3
  exact ⟨s, s', 2, h1, h2, exec_sound (fun _ => trivial) h3, of_decide_eq_true h4⟩

def PN : Params := { Demo.P with twoPhase := true, maxIter := 1 }

def envN : Env ℕ := { Demo.env with initNodes := fun s => .ok ([[0], [10], [4]], s.opq) }

/-- Nothing found. -/
def noPoint : SearchRes := { next := none }

/-- **C63** (violation) A two-phase run that reaches its iteration limit while a noisy evaluation is
outstanding ends with a `NameError`. -/
theorem C63_violated_example : ∃ s : PState ℕ, PReach PN envN pe1 0 (.running 0 100) s ∧
    s.pc = .raised .nameError ∧ s.alg.itercount = PN.maxIter ∧
    s.subs = [([0], true, .init), ([10], true, .init), ([4], true, .init)] := by
  have h : (firstCall PN envN pe1 0 100 [0, 0] (ticks 7 ++ [.harvest 0 noPoint] ++ ticks 5)).map
      (fun s => (s.pc, s.alg.itercount,
        decide (s.subs = [([0], true, .init), ([10], true, .init), ([4], true, .init)]))) =
      some (.raised .nameError, 1, true) := by
    decide +kernel
  obtain ⟨s, _, h1, h2⟩ := firstCall_exists (fun _ => trivial) h
  simp only [Prod.mk.injEq] at h2
  exact ⟨s, h1, h2.1, h2.2.1, of_decide_eq_true h2.2.2⟩

/-- The interpolation model fails once in the first cycle. -/
def envR : Env ℕ :=
  { Demo.env with modelFails := fun s => (decide (s.cyc = 0 ∧ 1 ≤ s.itercount), s.opq) }

def PR : Params := { Demo.P with refFreq := 1 }

/-- The search proposes `p`. -/
def propose (p : ℚ) : SearchRes := { next := some [p], modelImpr := 1 }

/-- A refinement step evaluates 5; the model fails, and after the outstanding search there is a restart
with the same initial points. -/
def actR : List Act :=
  ticks 7 ++ [.harvest 0 (propose 5)] ++ ticks 4 ++ [.collect 0] ++ ticks 8 ++
    [.harvest 0 noPoint] ++ ticks 2 ++ [.restart []]

/-- **C71** (violation) A refinement step that proposes a point recorded before the last restart blocks
refinement for the rest of the call: such a run exists. -/
theorem C71_blocked_example : ∃ s : PState ℕ, PReach PR envR pe1 0 (.running 0 100) s ∧
    s.RefBlocked ∧ s.pc = .searches ∧ s.alg.itercount = 3 := by
  have h : (firstCall PR envR pe1 0 100 [0, 0] (actR ++ ticks 7 ++ [.harvest 0 (propose 5)])).map
      (fun s => (s.refBusy, s.refJobs, s.pc, s.alg.itercount)) = some (true, 0, .searches, 3) := by
    decide +kernel
  obtain ⟨s, _, h1, h2⟩ := firstCall_exists (fun _ => trivial) h
  simp only [Prod.mk.injEq] at h2
  exact ⟨s, h1, ⟨h2.1, h2.2.1⟩, h2.2.2.1, h2.2.2.2⟩

/-- **C75** (violation) Pausing after two iterations and resuming: the second call ends with a
`NameError` when its first search proposes the point 5, which was recorded before the restart. -/
theorem C75_violated_example : ∃ (s1 s : PState ℕ), PReach PR envR pe1 0 .idle s1 ∧
    CallReach PR envR pe1 0 s1 100 s ∧ s1.alg.all.pos = [[0], [10], [5], [10], [0]] ∧
    s.pc = .raised .nameError := by
  have h : (firstCall PR envR pe1 0 2 [0, 0] (actR ++ ticks 2)).map
      (fun s => (s.pc, s.alg.itercount, s.alg.all.pos,
        (execs PR envR pe1 2 100 (withGap PR
          { ({ s with alg := { s.alg with elapsed := s.alg.elapsed + envR.callTime s.alg } } :
              PState ℕ).fresh with refCount := (s.alg.itercount : ℚ) / PR.refFreq })
          (ticks 7 ++ [.harvest 0 (propose 5)])).map (fun s => s.pc))) =
      some (.done, 2, [[0], [10], [5], [10], [0]], some (.raised .nameError)) := by
    decide +kernel
  obtain ⟨s, _, h1, h2⟩ := firstCall_exists (fun _ => trivial) h
  simp only [Prod.mk.injEq] at h2
  obtain ⟨h2, h3, h4, h5⟩ := h2
  rw [Option.map_eq_some_iff] at h5
  obtain ⟨s', h5, h6⟩ := h5
  refine ⟨_, s', .ret h1 h2, ?_, h4, h6⟩
  rw [← h3] at h5
  refine execs_call (fun _ => trivial) _ h5 (.start (.ret h1 h2) ?_)
  exact PStart.resumed (by decide) (by show s.alg.itercount ≠ 0; omega)

/-- A reachable state that meets the hypotheses of `C75_reuse`: the search proposes 5, recorded with
value 2 before the restart. -/
example : ∃ s : PState ℕ, PReach PR envR pe1 0 (.running 0 100) s ∧ s.pc = .searches ∧
    0 < s.searches.length ∧ s.iid ≠ none ∧
    (∀ q ∈ s.alg.cur.pos ++ s.tPos, PR.minDist < envR.dist [5] q) ∧
    (∃ q ∈ s.alg.all.pos.take s.alg.nAtRestart, envR.dist (envR.toOrig [5]) q < PR.epsZero) := by
  have h : (firstCall PR envR pe1 0 100 [0, 0] (actR ++ ticks 7)).map
      (fun s => (s.pc, decide (0 < s.searches.length ∧ s.iid ≠ none ∧
        (∀ q ∈ s.alg.cur.pos ++ s.tPos, PR.minDist < envR.dist [5] q) ∧
        (∃ q ∈ s.alg.all.pos.take s.alg.nAtRestart, envR.dist (envR.toOrig [5]) q < PR.epsZero)))) =
      some (.searches, true) := by
    decide +kernel
  obtain ⟨s, _, h1, h2⟩ := firstCall_exists (fun _ => trivial) h
  simp only [Prod.mk.injEq, decide_eq_true_eq] at h2
  exact ⟨s, h1, h2.1, h2.2⟩

def PL : Params := { Demo.P with maxStalled := 1, maxEval := 1000 }

def pe2 : PEnv ℕ := { pe1 with acc := fun i => [10, 50, 60][i]?.getD 3 }

def envL : Env ℕ :=
  { Demo.env with
    initNodes := fun s =>
      .ok ((if s.itercount = 0 then [[0], [10], [4]] else [[1], [9], [3], [6], [7]] : List Pt), s.opq) }

/-- **C61** More tasks than CPUs can be outstanding: four with two CPUs, one more than the evaluations
left by the last restart, so the bound of `C61_outstanding` is attained. -/
theorem C61_bound_attained : ∃ s : PState ℕ, PReach PL envL pe2 0 (.running 0 100) s ∧
    pe2.numCpus = 2 ∧ s.evals.length + s.searches.length = 4 ∧ s.left = 3 := by
  have h : (firstCall PL envL pe2 0 100 [0, 0]
      ([.tick, .collect 0] ++ ticks 4 ++ [.restart [0, 0]] ++ ticks 1)).map
      (fun s => (s.evals.length + s.searches.length, s.left)) = some (4, 3) := by
    decide +kernel
  obtain ⟨s, _, h1, h2⟩ := firstCall_exists (fun _ => trivial) h
  simp only [Prod.mk.injEq] at h2
  exact ⟨s, h1, rfl, h2.1, h2.2⟩

def PU : Params := { Demo.P with initPos := [[4]], maxIter := 1 }

/-- **C16** (violation, parallel) At the shutdown of a call a node can be added twice: an initial
point that was also given by the user. -/
theorem C16_parallel_violated_shutdown : ∃ s : PState ℕ, PReach PU envN pe1 0 (.running 0 100) s ∧
    s.pc = .done ∧ s.alg.nInit = 3 ∧ s.alg.cur.pos = [[0], [10], [4], [4]] := by
  have h : (firstCall PU envN pe1 0 100 [0, 0] (ticks 7 ++ [.harvest 0 noPoint] ++ ticks 6)).map
      (fun s => (s.pc, s.alg.nInit, s.alg.cur.pos)) = some (.done, 3, [[0], [10], [4], [4]]) := by
    decide +kernel
  obtain ⟨s, _, h1, h2⟩ := firstCall_exists (fun _ => trivial) h
  simp only [Prod.mk.injEq] at h2
  exact ⟨s, h1, h2.1, h2.2.1, h2.2.2⟩

/-- **C72** (violation) With a fixed type of RBF a model that cannot be built ends the run with an
`IndexError`, if there is no underdetermined system to fall back to. -/
theorem C72_violated_example : ∃ s : PState ℕ,
    PReach PR envR { pe1 with noCvList := fun _ => true } 0 (.running 0 100) s ∧
    s.pc = .raised .indexError ∧ s.alg.all.pos = [[0], [10], [5]] := by
  have h : (firstCall PR envR { pe1 with noCvList := fun _ => true } 0 100 [0, 0]
      (ticks 7 ++ [.harvest 0 (propose 5)] ++ ticks 4 ++ [.collect 0] ++ ticks 11)).map
      (fun s => (s.pc, s.alg.all.pos)) = some (.raised .indexError, [[0], [10], [5]]) := by
    decide +kernel
  obtain ⟨s, _, h1, h2⟩ := firstCall_exists (fun _ => trivial) h
  simp only [Prod.mk.injEq] at h2
  exact ⟨s, h1, h2.1, h2.2⟩

/-- A complete parallel run: the state from which `optimize()` returns the smallest record; nothing is
outstanding, and the counters agree.  The hypotheses of C01–C05, C17, C60–C63, C73 and C74 are met. -/
theorem parallel_run_example : ∃ s : PState ℕ, PReach PS envN pe1 0 (.running 0 100) s ∧
    CallReach PS envN pe1 0 { alg := Alg.init PS 0 } 100 s ∧
    s.pc = .done ∧ s.alg.all.pos ≠ [] ∧ returned s = some (2, [4]) ∧ s.alg.evalcount = 3 := by
  have h : (firstCall PS envN pe1 0 100 [0, 0] ([.tick, .collect 0] ++ ticks 3)).map
      (fun s => (s.pc, decide (s.alg.all.pos ≠ []), decide (returned s = some (2, [4])),
        s.alg.evalcount)) = some (.done, true, true, 3) := by
    decide +kernel
  obtain ⟨s, h0, h1, h2⟩ := firstCall_exists (fun _ => trivial) h
  simp only [Prod.mk.injEq] at h2
  exact ⟨s, h1, h0, h2.1, of_decide_eq_true h2.2.1, of_decide_eq_true h2.2.2.1,
    h2.2.2.2⟩

/-- The hypotheses of `C16_parallel_submission` are met: a point is submitted after a search. -/
theorem C16_parallel_submission_example : ∃ s s' : PState ℕ,
    PReach PR envR pe1 0 (.running 0 100) s ∧ s.pc = .searches ∧ PStep PR envR pe1 0 100 s s' ∧
    s'.subs ≠ s.subs := by
  have h : (firstCall PR envR pe1 0 100 [0, 0] (ticks 7)).map
      (fun s => (s.pc, (exec PR envR pe1 0 100 s (.harvest 0 (propose 5))).map
        (fun s' => decide (s'.subs ≠ s.subs)))) = some (.searches, some true) := by
    decide +kernel
  obtain ⟨s, _, h1, h2⟩ := firstCall_exists (fun _ => trivial) h
  simp only [Prod.mk.injEq] at h2
  obtain ⟨h2, h3⟩ := h2
  rw [Option.map_eq_some_iff] at h3
  obtain ⟨s', h3, h4⟩ := h3
  exact ⟨s, s', h1, h2, exec_sound (fun _ => trivial) h3, of_decide_eq_true h4⟩

def envRv : Env ℕ :=
  { envR with
    initRef := fun s => .ok ((if 2 ≤ s.cur.pos.length then [0, 1] else [], 1), s.opq) }

/-- The hypotheses of `C22_parallel_indices_valid` are met, in a refinement phase: while a refinement
search is running, and after its point was accepted (the node was swapped into the set, and the centre
moved to it). -/
theorem C22_parallel_example :
    (∀ a set rad o, envRv.initRef a = .ok ((set, rad), o) → ∀ j ∈ set, j < a.cur.pos.length) ∧
    (∃ s : PState ℕ, PReach PR envRv pe1 0 (.running 0 100) s ∧ s.refJobs = 1 ∧
      s.alg.refSet = [0, 1]) ∧
    (∃ s : PState ℕ, PReach PR envRv pe1 0 (.running 0 100) s ∧ s.alg.numCons = 1 ∧
      s.alg.refSet = [2, 1] ∧ s.alg.refIter = 2 ∧ s.alg.cur.pos.length = 3) := by
  refine ⟨?_, ?_, ?_⟩
  · intro a set rad o h j hj
    simp only [envRv, Except.ok.injEq, Prod.mk.injEq] at h
    obtain ⟨⟨rfl, -⟩, -⟩ := h
    split at hj
    · rename_i h2
      simp only [List.mem_cons, List.not_mem_nil, or_false] at hj
      rcases hj with rfl | rfl <;> omega
    · cases hj
  · have h : (firstCall PR envRv pe1 0 100 [0, 0] (ticks 7)).map
        (fun s => (s.refJobs, s.alg.refSet)) = some (1, [0, 1]) := by decide +kernel
    obtain ⟨s, _, h1, h2⟩ := firstCall_exists (fun _ => trivial) h
    simp only [Prod.mk.injEq] at h2
    exact ⟨s, h1, h2.1, h2.2⟩
  · have h : (firstCall PR envRv pe1 0 100 [0, 0]
        (ticks 7 ++ [.harvest 0 (propose 5)] ++ ticks 4 ++ [.collect 0])).map
        (fun s => (s.alg.numCons, s.alg.refSet, s.alg.refIter, s.alg.cur.pos.length)) =
          some (1, [2, 1], 2, 3) := by decide +kernel
    obtain ⟨s, _, h1, h2⟩ := firstCall_exists (fun _ => trivial) h
    simp only [Prod.mk.injEq] at h2
    exact ⟨s, h1, h2.1, h2.2.1, h2.2.2.1, h2.2.2.2⟩

end Demo

end Rbfopt
