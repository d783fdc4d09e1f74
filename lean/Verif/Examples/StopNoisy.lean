import Verif.Examples.Witness
import Verif.Props.StopNoisy

/-!
# C12: a two-phase run that stops for a target no record reaches
-/

namespace Rbfopt.Demo

/-- Noisy values `x` with the interval `(-1, 1)` at 0 and `(-1, 0)` elsewhere; the local search proposes
the noisy node 0. -/
def envSb : Env ℕ :=
  { envRe with evalNoisy := fun _ x => (x.headD 0, -1, if x.headD 0 = 0 then 1 else 0) }

def PSb : Params := { PNw with maxNoisyIter := 0, maxIter := 30, target := 1/2 }

/-- **C12** (violation, two-phase) Re-evaluating the noisy node 0 removes its record without updating the
tracked best value 0: the next pass compares this value, with the error interval of another record, with
the target 1/2.  The call stops after 3 iterations of 30 and of the 10 of the pause length, 3 evaluations
of 100, 1 cycle of 50, although the least recorded value, which is returned, is 2. -/
theorem C12_violated_stale_best :
    (optimize PSb envSb 40 10 (Alg.init PSb 0)).result?.map
      (fun r => (r.final.all.val, r.value, (r.itercount, r.evalcount), r.final.fbest)) =
    some ([10, 5, 2, 10], 2, (3, 3), ((0 : ℚ) : EVal)) ∧
    (optimize PSb envSb 40 10 (Alg.init PSb 0)).result?.map
      (fun r => (r.final.cyc, r.final.all.err)) =
    some (1, [(-1, 0), (0, 0), (0, 0), (0, 0)]) ∧
    ¬ (2 : ℚ) ≤ PSb.target + PSb.epsOpt * (if PSb.epsZero ≤ |PSb.target| then |PSb.target| else 1) ∧
    PSb.searchSpace = ⊤ ∧ PSb.maxClock = ⊤ ∧ PSb.maxCycles = 50 :=
  ⟨by decide +kernel, by decide +kernel, by decide +kernel, rfl, rfl, by decide +kernel⟩

/-- The hypotheses of `C12_stop_reason_two_phase` hold for this run. -/
example : (∀ p, envSb.dist p p = 0) ∧ 0 ≤ PSb.minDist ∧ 0 < PSb.epsZero ∧
    (∀ before x, 0 ≤ (envSb.evalNoisy before x).2.2) ∧
    ∃ r, optimize PSb envSb 40 10 (Alg.init PSb 0) = .ret r := by
  refine ⟨by simp [envSb, envRe, env, dist1], by decide +kernel, by decide +kernel, ?_, ?_⟩
  · intro _ x
    show (0 : ℚ) ≤ if x.headD 0 = 0 then 1 else 0
    split <;> norm_num
  · have h := C12_violated_stale_best.1
    cases hr : optimize PSb envSb 40 10 (Alg.init PSb 0) with
    | ret r => exact ⟨r, rfl⟩
    | raised e => rw [hr] at h; cases h
    | outOfFuel => rw [hr] at h; cases h

end Rbfopt.Demo
