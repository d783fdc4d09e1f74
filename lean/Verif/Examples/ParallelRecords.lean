import Verif.Examples.ParallelPhase
import Verif.Props.ParallelRecords

/-! # Concrete runs for the records of the parallel engine -/

namespace Rbfopt.Demo

/-- All noisy values are 5, with the interval `[5, 6]`. -/
def peInt : PEnv ℕ := { pe1 with noisyRes := fun _ => (5, 0, 1) }

/-- **C06** A two-phase parallel run with records of both kinds: the noisy ones carry the interval the
black box returned, the accurate one none. -/
theorem C06_parallel_example : ∃ s : PState ℕ, PReach PT envT peInt 0 (.running 0 100) s ∧
    s.alg.all.pos = [[0], [10], [4]] ∧ s.alg.all.noisy = [true, true, false] ∧
    s.alg.all.err = [(0, 1), (0, 1), (0, 0)] := by
  have h : (firstCall PT envT peInt 0 100 [0, 0] (actT ++ ticks 2 ++ [.harvest 0 (again 2 4)] ++
      ticks 3 ++ [.collect 1])).map
      (fun s => (s.alg.all.pos, s.alg.all.noisy, s.alg.all.err)) =
      some ([[0], [10], [4]], [true, true, false], [(0, 1), (0, 1), (0, 0)]) := by
    decide +kernel
  obtain ⟨s, _, h1, h2⟩ := firstCall_exists (fun _ => trivial) h
  simp only [Prod.mk.injEq] at h2
  exact ⟨s, h1, h2.1, h2.2.1, h2.2.2⟩

/-- **C64** A parallel run whose log has two starred lines. -/
theorem C64_parallel_example : ∃ s : PState ℕ, PReach PS envN pe1 0 (.running 0 100) s ∧
    s.alg.stars.length = 2 := by
  have h : (firstCall PS envN pe1 0 100 [0, 0] ([.tick, .collect 0] ++ ticks 3)).map
      (fun s => s.alg.stars.length) = some 2 := by
    decide +kernel
  obtain ⟨s, _, h1, h2⟩ := firstCall_exists (fun _ => trivial) h
  exact ⟨s, h1, h2⟩

end Rbfopt.Demo
