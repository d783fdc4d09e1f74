import Verif.Examples.ParallelRecords
import Verif.Props.ParallelStopNoisy

/-! # A two-phase parallel call that ends because of its target (C12) -/

namespace Rbfopt.Demo

def PT6 : Params := { PT with target := 6 }

def envT2 : Env ℕ := { Demo.env with initNodes := fun s => .ok ([[0], [10]], s.opq) }

/-- **C12** A two-phase parallel call with error intervals `[5, 6]` and target 6 ends after its initial
sample; it meets the hypotheses of `C12_parallel_stop_reason_two_phase`. -/
theorem C12_parallel_two_phase_example : ∃ s : PState ℕ,
    CallReach PT6 envT2 peInt 0 { alg := Alg.init PT6 0 } 100 s ∧ PT6.twoPhase = true ∧
    (∀ id, 0 ≤ (peInt.noisyRes id).2.2) ∧ 0 < PT6.epsZero ∧
    s.pc = .done ∧ s.alg.fbest = ((5 : ℚ) : EVal) ∧ TargetReached PT6 5 ∧
    s.alg.evalcount = 0 ∧ s.alg.noisyEvalcount = 2 ∧ s.alg.itercount = 0 := by
  have h : (firstCall PT6 envT2 peInt 0 100 [0, 0] (ticks 2)).map
      (fun s => (s.pc, decide (s.alg.fbest = ((5 : ℚ) : EVal)), s.alg.evalcount, s.alg.noisyEvalcount, s.alg.itercount)) =
      some (.done, true, 0, 2, 0) := by
    decide +kernel
  obtain ⟨s, h0, _, h2⟩ := firstCall_exists (fun _ => trivial) h
  simp only [Prod.mk.injEq] at h2
  refine ⟨s, h0, rfl, fun _ => ?_, by decide +kernel, h2.1, of_decide_eq_true h2.2.1, by decide +kernel, h2.2.2⟩
  show (0 : ℚ) ≤ 1
  norm_num

end Rbfopt.Demo
