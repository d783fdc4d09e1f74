import Verif.Examples.ParallelPhase
import Verif.Props.ParallelNoisy

/-! # A parallel run that exceeds `max_noisy_evaluations` (C10) -/

namespace Rbfopt.Demo

/-- Two phases, at most 4 noisy evaluations. -/
def P10 : Params := { PT with maxNoisyEval := 4, maxNoisyIter := 20 }

/-- Eight workers. -/
def pe10 : PEnv ℕ := { pe4 with numCpus := 8 }

/-- Six searches are started before any of the results arrive. -/
def act10 : List Act := (List.replicate 6 (ticks 5)).flatten ++ ticks 2 ++
  [.harvest 0 (propose 1), .harvest 0 (propose 2), .harvest 0 (propose 3), .harvest 0 (propose 5),
   .harvest 0 (propose 6), .harvest 0 (propose 8)]

/-- **C10** (violation, parallel) With `max_noisy_evaluations = 4` and an initial sample of 4 points, ten
noisy evaluations are submitted: the limit is not looked at before a result is recorded.  The
state meets the hypotheses of `C10_parallel_noisy_budget`, whose bound is 5 + 8. -/
theorem C10_violated_parallel_example : ∃ s : PState ℕ,
    CallReach P10 envT pe10 0 { alg := Alg.init P10 0 } 100 s ∧ P10.twoPhase = true ∧
    (∀ a pts o, envT.initNodes a = .ok (pts, o) → pts.length ≤ 4) ∧
    P10.maxNoisyEval = 4 ∧ s.subs.countP (fun x => x.2.1 == true) = 10 := by
  have h : (firstCall P10 envT pe10 0 100 [0, 0] act10).map
      (fun s => s.subs.countP (fun x => x.2.1 == true)) = some 10 := by
    decide +kernel
  obtain ⟨s, h0, _, h2⟩ := firstCall_exists (fun _ => trivial) h
  refine ⟨s, h0, rfl, ?_, rfl, h2⟩
  intro a pts o h
  simp only [envT, Except.ok.injEq, Prod.mk.injEq] at h
  rw [← h.1]; simp

end Rbfopt.Demo
