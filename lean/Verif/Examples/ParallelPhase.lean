import Verif.Examples.Parallel
import Verif.Props.ParallelPhase

/-! # Concrete two-phase runs of the parallel engine -/

namespace Rbfopt.Demo

/-- Two phases; the noisy phase ends after the first iteration. -/
def PT : Params :=
  { Demo.P with twoPhase := true, maxIter := 50, maxNoisyIter := 1, maxNoisyEval := 100
                refFreq := 1000 }

/-- All noisy values are 5, without error. -/
def pe4 : PEnv ℕ := { pe1 with noisyRes := fun _ => (5, 0, 0) }

def envT : Env ℕ := { Demo.env with initNodes := fun s => .ok ([[0], [10], [4], [7]], s.opq) }

/-- A local search asks for the node with index `i` at `p` to be evaluated again. -/
def again (i : ℕ) (p : ℚ) : SearchRes := { next := some [p], ind := some i }

/-- Collect a search with result `r`, and submit the next one. -/
def roundWith (r : SearchRes) : List Act := ticks 2 ++ [.harvest 0 r] ++ ticks 3

/-- Until a local search is running in the accurate phase, with the noisy evaluation of 7 still
outstanding. -/
def actT : List Act :=
  [.tick, .collect 0, .tick] ++ ticks 5 ++ roundWith noPoint ++ roundWith noPoint ++ roundWith noPoint

/-- **C80** (violation) A concrete run: the noisy evaluation of 7 is outstanding when the local search
of the accurate phase asks for its accurate evaluation.  Nothing is submitted, and the noisy result,
when it arrives, is ignored: the point 7 was evaluated, but neither value is ever recorded. -/
theorem C80_violated_example : ∃ s : PState ℕ, PReach PT envT pe4 0 (.running 0 100) s ∧
    s.alg.mode = .accurate ∧ s.alg.all.pos = [[0], [10], [4]] ∧ s.evals = [] ∧
    s.subs = [([0], true, .init), ([10], true, .init), ([4], true, .init), ([7], true, .init)] ∧
    (3, Fate.skipped) ∈ s.hist := by
  have h : (firstCall PT envT pe4 0 100 [0, 0]
      (actT ++ ticks 2 ++ [.harvest 0 (again 5 7)] ++ ticks 4 ++ [.collect 0])).map
      (fun s => (decide (s.alg.mode = .accurate), s.alg.all.pos, decide (s.evals = []),
        decide (s.subs = [([0], true, .init), ([10], true, .init), ([4], true, .init),
          ([7], true, .init)]), decide ((3, Fate.skipped) ∈ s.hist))) =
      some (true, [[0], [10], [4]], true, true, true) := by
    decide +kernel
  obtain ⟨s, _, h1, h2⟩ := firstCall_exists (fun _ => trivial) h
  simp only [Prod.mk.injEq, decide_eq_true_eq] at h2
  exact ⟨s, h1, h2.1, h2.2.1, h2.2.2.1, h2.2.2.2.1, h2.2.2.2.2⟩

/-- The node 4, recorded with a noisy value, is evaluated again: it leaves the nodes and the records,
and an accurate evaluation is submitted. -/
theorem C80_evaluated_again_example : ∃ s : PState ℕ, PReach PT envT pe4 0 (.running 0 100) s ∧
    s.alg.mode = .accurate ∧ s.alg.all.pos = [[0], [10]] ∧
    s.subs = [([0], true, .init), ([10], true, .init), ([4], true, .init), ([7], true, .init),
      ([4], false, .loc)] := by
  have h : (firstCall PT envT pe4 0 100 [0, 0] (actT ++ ticks 2 ++ [.harvest 0 (again 2 4)])).map
      (fun s => (decide (s.alg.mode = .accurate), s.alg.all.pos,
        decide (s.subs = [([0], true, .init), ([10], true, .init), ([4], true, .init),
          ([7], true, .init), ([4], false, .loc)]))) = some (true, [[0], [10]], true) := by
    decide +kernel
  obtain ⟨s, _, h1, h2⟩ := firstCall_exists (fun _ => trivial) h
  simp only [Prod.mk.injEq, decide_eq_true_eq] at h2
  exact ⟨s, h1, h2.1, h2.2.1, h2.2.2⟩

/-- A reachable state that meets the hypotheses of `C80_node_evaluated_again` (for the node 4, with
index 2) and of `C80_violated_outstanding_not_submitted` (for the outstanding point 7). -/
theorem C80_hypotheses_example : ∃ s : PState ℕ, PReach PT envT pe4 0 (.running 0 100) s ∧
    s.pc = .searches ∧ s.searches[0]? = some ⟨false, .loc⟩ ∧
    s.alg.cur.pos = [[0], [10], [4]] ∧ s.tPos = [[7]] ∧ s.alg.nAtRestart = 0 := by
  have h : (firstCall PT envT pe4 0 100 [0, 0] (actT ++ ticks 2)).map
      (fun s => (decide (s.pc = .searches), decide (s.searches[0]? = some ⟨false, .loc⟩),
        decide (s.alg.cur.pos = [[0], [10], [4]]), decide (s.tPos = [[7]]),
        decide (s.alg.nAtRestart = 0))) = some (true, true, true, true, true) := by
    decide +kernel
  obtain ⟨s, _, h1, h2⟩ := firstCall_exists (fun _ => trivial) h
  simp only [Prod.mk.injEq, decide_eq_true_eq] at h2
  exact ⟨s, h1, h2.1, h2.2.1, h2.2.2.1, h2.2.2.2.1, h2.2.2.2.2⟩

/-- **C07** (violation, parallel) A search that was started in the noisy phase is collected in the
accurate phase: its point is submitted to `evaluate_noisy()` although the mode is accurate.  The bound
of `C07_parallel_accurate_mode_is_final` is attained. -/
theorem C07_parallel_violated_example : ∃ s s' : PState ℕ,
    PReach PT envT { pe4 with numCpus := 3 } 0 (.running 0 100) s ∧ s.alg.mode = .accurate ∧
    s.noisySearches = 1 ∧ PStep PT envT { pe4 with numCpus := 3 } 0 100 s s' ∧
    s'.subs = s.subs ++ [([5], true, .ref)] := by
  have h : (firstCall PT envT { pe4 with numCpus := 3 } 0 100 [0, 0]
      (ticks 6 ++ [.collect 0] ++ ticks 3)).map
      (fun s => (decide (s.alg.mode = .accurate), s.noisySearches,
        (exec PT envT { pe4 with numCpus := 3 } 0 100 s (.harvest 0 (propose 5))).map
        (fun s' => decide (s'.subs = s.subs ++ [([5], true, .ref)])))) = some (true, 1, some true) := by
    decide +kernel
  obtain ⟨s, _, h1, h2⟩ := firstCall_exists (fun _ => trivial) h
  simp only [Prod.mk.injEq, decide_eq_true_eq] at h2
  obtain ⟨h2, h3, h4⟩ := h2
  rw [Option.map_eq_some_iff] at h4
  obtain ⟨s', h4, h5⟩ := h4
  exact ⟨s, s', h1, h2, h3, exec_sound (fun _ => trivial) h4, of_decide_eq_true h5⟩

/-- The hypotheses of `C24_parallel_collected` are met; a promising noisy value (2, could be 1) is not
recorded and the point 4 is submitted for an accurate evaluation. -/
theorem C24_parallel_example : ∃ s s' : PState ℕ, PReach PN envN pe1 0 (.running 0 100) s ∧
    s.pc = .evals 0 ∧ s.tabu = [] ∧ s'.pc = .evals 0 ∧ PStep PN envN pe1 0 100 s s' ∧
    s'.subs = s.subs ++ [([4], false, .init)] ∧ s'.alg.all = s.alg.all := by
  have h : (firstCall PN envN pe1 0 100 [0, 0] [.tick]).map
      (fun s => (s.pc, s.tabu, (exec PN envN pe1 0 100 s (.collect 0)).map
        (fun s' => (s'.pc, decide (s'.subs = s.subs ++ [([4], false, .init)]),
          decide (s'.alg.all = s.alg.all))))) = some (.evals 0, [], some (.evals 0, true, true)) := by
    decide +kernel
  obtain ⟨s, _, h1, h2⟩ := firstCall_exists (fun _ => trivial) h
  simp only [Prod.mk.injEq] at h2
  obtain ⟨h2, h3, h4⟩ := h2
  rw [Option.map_eq_some_iff] at h4
  obtain ⟨s', h4, h5⟩ := h4
  simp only [Prod.mk.injEq, decide_eq_true_eq] at h5
  exact ⟨s, s', h1, h2, h3, h5.1, exec_sound (fun _ => trivial) h4, h5.2.1, h5.2.2⟩

end Rbfopt.Demo
