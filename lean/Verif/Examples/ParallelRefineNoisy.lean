import Verif.Examples.ParallelIndices
import Verif.Props.ParallelRefineNoisy

/-! # A parallel run in noisy mode with a refinement step outstanding (C22) -/

namespace Rbfopt.Demo

def PVN : Params := { PV with maxNoisyIter := 100 }

/-- **C22** A two-phase run with workers, in noisy mode, while a refinement search is outstanding and
after its result has been submitted for evaluation; it meets the hypotheses of
`C22_parallel_indices_valid_noisy_mode`. -/
theorem C22_parallel_noisy_mode_example : PVN.twoPhase = true ∧
    (∀ a set rad o, envV.initRef a = .ok ((set, rad), o) → ∀ j ∈ set, j < a.cur.pos.length) ∧
    ∃ s : PState ℕ, PReach PVN envV pe10 0 (.running 0 100) s ∧ s.alg.mode = .noisy ∧
      s.refJobs = 1 ∧ s.alg.refSet = [0, 1, 2] ∧ s.alg.cur.pos.length = 3 := by
  refine ⟨rfl, C22_violated_parallel_two_phase.1, ?_⟩
  have h : (firstCall PVN envV pe10 0 100 [0, 0] ([.tick, .collect 0, .tick] ++ ticks 37 ++
      [.harvest 0 (propose 5)])).map
        (fun s => (decide (s.alg.mode = .noisy), s.refJobs, s.alg.refSet, s.alg.cur.pos.length)) =
          some (true, 1, [0, 1, 2], 3) := by decide +kernel
  obtain ⟨s, _, h1, h2⟩ := firstCall_exists (fun _ => trivial) h
  simp only [Prod.mk.injEq, decide_eq_true_eq] at h2
  exact ⟨s, h1, h2.1, h2.2.1, h2.2.2.1, h2.2.2.2⟩

end Rbfopt.Demo
