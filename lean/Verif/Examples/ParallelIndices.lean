import Verif.Examples.ParallelNoisy

/-! # Two-phase parallel runs whose refinement indices become invalid (C22), and that evaluate a point
accurately twice (C80) -/

namespace Rbfopt.Demo

/-- Accurate mode from the first recorded result on, refinement as often as possible. -/
def PV : Params := { PT with maxNoisyIter := 0, refFreq := 1 }

/-- The model set consists of all nodes. -/
def envV : Env ℕ := { envT with initRef := fun s => .ok ((List.range s.cur.pos.length, 1), s.opq) }

/-- A refinement search is started, then others; the two local searches among them ask for the nodes 4
and 10 to be evaluated again, then the refinement search proposes 5. -/
def actV : List Act := [.tick, .collect 0, .tick] ++ ticks 37 ++
  [.harvest 3 (again 2 4), .harvest 5 (again 1 10), .harvest 0 (propose 5)]

/-- **C22** (violation, parallel, two-phase) Nodes are removed for re-evaluation while a refinement step is
being computed: although the model set of the refinement was valid when it was chosen, two of its three
indices then denote no node, and when the evaluation of the refinement step is collected `optimize()`
ends with an `IndexError`. -/
theorem C22_violated_parallel_two_phase :
    (∀ a set rad o, envV.initRef a = .ok ((set, rad), o) → ∀ j ∈ set, j < a.cur.pos.length) ∧
    (∃ s : PState ℕ, PReach PV envV pe10 0 (.running 0 100) s ∧ s.alg.mode = .accurate ∧
      s.refJobs = 1 ∧ s.alg.refSet = [0, 1, 2] ∧ s.alg.cur.pos = [[0]]) ∧
    (∃ s : PState ℕ, PReach PV envV pe10 0 (.running 0 100) s ∧ s.pc = .raised .indexError) := by
  refine ⟨?_, ?_, ?_⟩
  · intro a set rad o h j hj
    simp only [envV, Except.ok.injEq, Prod.mk.injEq] at h
    obtain ⟨⟨rfl, -⟩, -⟩ := h
    exact List.mem_range.mp hj
  · have h : (firstCall PV envV pe10 0 100 [0, 0] actV).map
        (fun s => (decide (s.alg.mode = .accurate), s.refJobs, s.alg.refSet, s.alg.cur.pos)) =
          some (true, 1, [0, 1, 2], [[0]]) := by decide +kernel
    obtain ⟨s, _, h1, h2⟩ := firstCall_exists (fun _ => trivial) h
    simp only [Prod.mk.injEq, decide_eq_true_eq] at h2
    exact ⟨s, h1, h2.1, h2.2.1, h2.2.2.1, h2.2.2.2⟩
  · have h : (firstCall PV envV pe10 0 100 [0, 0] (actV ++ ticks 3 ++ [.collect 3])).map
        (fun s => s.pc) = some (.raised .indexError) := by decide +kernel
    obtain ⟨s, _, h1, h2⟩ := firstCall_exists (fun _ => trivial) h
    exact ⟨s, h1, h2⟩

def PAcc : Params := { PT with maxNoisyIter := 0 }

/-- Two local searches are outstanding; the first one asks for the noisy node 4 to be evaluated again,
which is done. -/
def actW : List Act := [.tick, .collect 0, .tick] ++ ticks 37 ++ [.harvest 3 (again 2 4)] ++ ticks 3 ++
  [.collect 1]

/-- **C80** (violation) If the second one asks for the same node, then the record with the accurate value 1,
the best value found, is removed, and the point is evaluated accurately once more. -/
theorem C80_violated_accurate_removed :
    (∃ s : PState ℕ, PReach PAcc envT pe10 0 (.running 0 100) s ∧ s.alg.all.pos = [[0], [10], [4]] ∧
      s.alg.all.val = [5, 5, 1] ∧ s.alg.all.noisy = [true, true, false]) ∧
    (∃ s : PState ℕ, PReach PAcc envT pe10 0 (.running 0 100) s ∧ s.alg.all.pos = [[0], [10]] ∧
      s.alg.all.noisy = [true, true] ∧ (4, Fate.recorded) ∈ s.hist ∧
      s.subs = [([0], true, .init), ([10], true, .init), ([4], true, .init), ([7], true, .init),
        ([4], false, .loc), ([4], false, .loc)]) := by
  refine ⟨?_, ?_⟩
  · have h : (firstCall PAcc envT pe10 0 100 [0, 0] actW).map
        (fun s => (s.alg.all.pos, s.alg.all.val, s.alg.all.noisy)) =
          some ([[0], [10], [4]], [5, 5, 1], [true, true, false]) := by decide +kernel
    obtain ⟨s, _, h1, h2⟩ := firstCall_exists (fun _ => trivial) h
    simp only [Prod.mk.injEq] at h2
    exact ⟨s, h1, h2.1, h2.2.1, h2.2.2⟩
  · have h : (firstCall PAcc envT pe10 0 100 [0, 0] (actW ++ ticks 3 ++ [.harvest 5 (again 2 4)])).map
        (fun s => (s.alg.all.pos, s.alg.all.noisy, decide ((4, Fate.recorded) ∈ s.hist),
          decide (s.subs = [([0], true, .init), ([10], true, .init), ([4], true, .init),
            ([7], true, .init), ([4], false, .loc), ([4], false, .loc)]))) =
          some ([[0], [10]], [true, true], true, true) := by decide +kernel
    obtain ⟨s, _, h1, h2⟩ := firstCall_exists (fun _ => trivial) h
    simp only [Prod.mk.injEq, decide_eq_true_eq] at h2
    exact ⟨s, h1, h2.1, h2.2.1, h2.2.2.1, h2.2.2.2⟩

end Rbfopt.Demo
