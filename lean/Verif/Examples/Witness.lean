import Verif.Examples.Demo
import Verif.Spec.Records

/-!
# Concrete runs of the serial engine that refute the parts of properties that do not hold

Each theorem is one concrete run, computed by the kernel: a counterexample to the English property.
-/

namespace Rbfopt.Demo

/-- The two-phase version of the demo problem. -/
def PNw : Params := { P with twoPhase := true, maxNoisyEval := 100, maxNoisyIter := 20 }

/-! ## C06 -/

/-- **C06** (violation) If `max_noisy_evaluations` is small, the initial sample is evaluated with
`evaluate()`, and still recorded as noisy: no call of `evaluate_noisy()` was ever made, all records
are flagged noisy. -/
theorem C06_violated_accurate_flagged_noisy :
    (optimize { PNw with maxNoisyEval := 2 } env 40 0 (Alg.init PNw 0)).result?.map
      (fun r => (r.final.all.noisy, countNoisy r.final.log, r.evalcount, r.final.all.val)) =
    some ([true, true], 0, 2, [10, 50]) := by
  decide +kernel

/-- A black box whose noisy value at `x` is `200 - x`, with error interval `(-x/10, x/10)`; building
the model fails until the first restart, and the first sample differs from the others. -/
def envSw (pts : Alg ℕ → Option Pt) : Env ℕ :=
  { env with
    evalNoisy := fun _ x => (200 - x.headD 0, - x.headD 0 / 10, x.headD 0 / 10)
    initNodes := fun s => .ok (if s.nAtRestart = 0 then [[0], [10]] else [[1], [9]], s.opq)
    modelFails := fun s => (s.nAtRestart = 0, s.opq)
    search := fun s => .ok (pts s, s.opq) }

/-- **C06** (violation) A noisy record made before a restart is reused before any noisy evaluation of
the current call: `optimize()` raises `NameError` because the error bounds are unbound. -/
theorem C06_violated_unbound_interval :
    (optimize { PNw with n := 5 } (envSw fun _ => some [0]) 40 10 (Alg.init PNw 0)).error? =
      some .nameError := by
  decide +kernel

/-- **C06** (violation) A noisy record made before a restart is reused after another noisy
evaluation: the new record of the point 0 carries the error interval of the point 5, `(-1/2, 1/2)`
instead of `(0, 0)`. -/
theorem C06_violated_stale_interval :
    (optimize { PNw with n := 5, maxIter := 2 }
        (envSw fun s => some (if s.itercount = 0 then [5] else [0])) 40 10 (Alg.init PNw 0)).result?.map
      (fun r => (r.final.all.pos, r.final.all.err)) =
    some ([[0], [10], [1], [9], [5], [0]],
      [(0, 0), (-1, 1), (-1/10, 1/10), (-9/10, 9/10), (-1/2, 1/2), (-1/2, 1/2)]) := by
  decide +kernel

/-! ## C02 -/

/-- Noisy values `x`, accurate values `(x - 3)² + 1`; the local search proposes the point 0, which is a
noisy node, so that this node is re-evaluated. -/
def envRe : Env ℕ :=
  { env with
    evalNoisy := fun _ x => (x.headD 0, -1, 1)
    localSearch := fun s => .ok (⟨false, some [0], some (0 : ℚ), false, []⟩, s.opq) }

/-- **C02** (violation, two-phase) Re-evaluating a noisy node removes its record without updating the
tracked best value: afterwards the tracked best value is 0, at a record whose value is 10, no record
has the value 0, and the value returned is 1. -/
theorem C02_violated_reevaluation :
    (optimize { PNw with maxNoisyIter := 0, maxIter := 3, target := -100 } envRe 40 10
        (Alg.init PNw 0)).result?.map
      (fun r => (r.final.all.val, r.final.fbest, r.final.fbestIdx, r.value)) =
    some ([10, 1, 2, 10], ((0 : ℚ) : EVal), 0, 1) := by
  decide +kernel

/-! ## C24 -/

/-- **C24** (violation) An initial sample is evaluated with the noisy oracle only; if one of its values
reaches the target the run ends there: the value returned is noisy, `evaluate()` was never called. -/
theorem C24_violated_noisy_sample :
    (optimize PNw { env with evalNoisy := fun _ x => (x.headD 0, 0, 0) } 40 10
        (Alg.init PNw 0)).result?.map
      (fun r => (r.value, r.evalcount, r.noisyEvalcount, r.itercount)) = some (0, 0, 2, 0) := by
  decide +kernel

/-- **C24** (violation) With a target of zero the gap is absolute, while the re-evaluation test is
relative to the target: a noisy value of an iteration (1/200) is recorded without accurate evaluation
and ends the run. -/
theorem C24_violated_zero_target :
    (optimize { PNw with epsImpr := 1/100 }
        { env with evalNoisy := fun _ x =>
            (if x = [1] then 1/200 else if x = [0] then 101/10000 else 1, 0, 0) } 40 10
        (Alg.init PNw 0)).result?.map
      (fun r => (r.value, r.evalcount, r.noisyEvalcount, r.itercount)) = some (1/200, 0, 3, 1) := by
  decide +kernel

/-! ## C09, C13, C18 -/

/-- Two calls of `optimize`, second one on the object left by the first. -/
def twice (P : Params) (env : Env ℕ) (k k' : ℕ) : Option (OptResult ℕ) :=
  (optimize P env 60 k (Alg.init P 0)).result?.bind (fun r => (optimize P env 60 k' r.final).result?)

def PSw : Params := { PNw with n := 5, maxIter := 2 }
/-- The search proposes the point 5, then the point 0, recorded before the last restart. -/
def envS2 : Env ℕ := envSw fun s => some (if s.itercount = 0 then [5] else [0])

/-- **C13** (violation, two-phase) The error bounds of the last noisy evaluation are variables of the call: a
noisy record made before a restart can be reused by the uninterrupted run (with the wrong interval, see
`C06_violated_stale_interval`), which returns after 2 iterations; if the run is paused after the first
one, the second call raises `NameError`. -/
theorem C13_violated_two_phase :
    (optimize PSw envS2 40 2 (Alg.init PSw 0)).result?.map (fun r => (r.itercount, r.value)) = some (2, 190) ∧
    (optimize PSw envS2 40 1 (Alg.init PSw 0)).result?.map (fun r => r.itercount) = some 1 ∧
    (optimize PSw envS2 40 1 (Alg.init PSw 0)).result?.bind
      (fun r => (optimize PSw envS2 40 1 r.final).error?) = some .nameError := by
  decide +kernel

/-- **C13** (violation without an iteration) A call that makes no iteration does not count as having
started: the next call initializes again, evaluates the user's point 4 a second time and restarts.
`optimize(0); optimize(1)` makes more evaluations than `optimize(1)`. -/
theorem C13_violated_no_iteration :
    ((twice { P with initPos := [[4]] } env 0 1).map
        (fun r => (r.evalcount, r.final.log.count (Call.acc [4] 2), r.itercount)),
      (optimize { P with initPos := [[4]] } env 60 1 (Alg.init P 0)).result?.map
        (fun r => (r.evalcount, r.final.log.count (Call.acc [4] 2), r.itercount))) =
    (some (5, 2, 1), some (4, 1, 1)) := by
  decide +kernel

/-- The first sample is bad, the second contains the optimum; values `(x - 3)²`; no point is proposed
after the restart at iteration 3. -/
def envG : Env ℕ :=
  { env with
    evalAcc := fun _ x => (x.headD 0 - 3)^2
    initNodes := fun s => .ok (if s.nAtRestart = 0 then [[0], [10]] else [[3], [2]], s.opq)
    search := fun s => .ok (if s.itercount = 3 then none else some [9 - (s.itercount : ℚ)], s.opq)
    localSearch := fun s => .ok (⟨false, some [9 - (s.itercount : ℚ)], none, false, []⟩, s.opq) }

/-- **C13** (violation at the target) After a restart inside a call the gap is not recomputed: the
uninterrupted run goes on for another iteration although the target is reached, the run paused
after 4 iterations stops at once. -/
theorem C13_violated_stale_gap :
    ((twice { P with maxStalled := 1, threshUnlStalled := 100, maxIter := 8 } envG 4 4).map (fun r => (r.itercount, r.value)),
      (optimize { P with maxStalled := 1, threshUnlStalled := 100, maxIter := 8 } envG 60 8 (Alg.init P 0)).result?.map
        (fun r => (r.itercount, r.value))) =
    (some (4, 0), some (5, 0)) := by
  decide +kernel

/-- **C09** (attained overshoot) With `max_evaluations = 1` the first sample of two points and the
user's point are evaluated all the same. -/
theorem C09_overshoot_attained :
    (optimize { P with initPos := [[4]], maxEval := 1 } env 60 5 (Alg.init P 0)).result?.map
      (fun r => (r.evalcount, r.itercount)) = some (3, 0) := by
  decide +kernel

end Rbfopt.Demo
