import Verif.Model.Serial
import Verif.Spec.Reach

/-!
# Concrete environments used to show that the hypotheses of the theorems are satisfiable

These are tests (concrete runs computed by the kernel), not part of any proof.
-/

namespace Rbfopt.Demo

/-- distance on one-dimensional points -/
def dist1 (p q : Pt) : ℚ := |p.headD 0 - q.headD 0|

/-- A one-dimensional problem on `[0, 10]`, no categorical variables, no scaling. -/
def P : Params :=
  { n := 1, numGlobal := 1, doInf := true, doLocal := true, maxIter := 4, maxEval := 100,
    maxNoisyEval := 5, maxCycles := 50, maxClock := ⊤, searchSpace := ⊤, target := 0,
    epsOpt := 1/100, epsZero := 1/1000000, epsImpr := 1/1000, minDist := 1/100000,
    discWindow := 10, maxFracDisc := 1/2, maxStalled := 100, maxNoisyRestarts := 2,
    maxNoisyIter := 20, maxConsRef := 3, threshUnl := 9/10, threshUnlStalled := 9/10,
    refFreq := 3, refMinRadius := 1/1000, refShrink := 1/4, refEnlarge := 3/4, refMove := 0,
    maxConsRest := 5, initFrac := 1/2, saveInterval := 100, twoPhase := false, doInit := true,
    initPos := [], initVal := [], lLower := [0], lUpper := [10] }

/-- Search proposes 1, 2, 3, …; objective `(x - 3)² + 1`. -/
def env : Env ℕ :=
  { dist := dist1, decode := id, toInternal := id, toOrig := id
    evalAcc := fun _ x => (x.headD 0 - 3)^2 + 1
    evalNoisy := fun _ x => ((x.headD 0 - 3)^2 + 2, -1, 1)
    initNodes := fun s => .ok ([[0], [10]], s.opq)
    prep := fun s => .ok s.opq
    modelFails := fun s => (false, s.opq)
    initRef := fun s => .ok (([0, 1], 1), s.opq)
    linFails := fun s => (false, s.opq)
    search := fun s => .ok (some [(s.itercount : ℚ) + 1], s.opq + 1)
    localSearch := fun s => .ok (⟨false, some [(s.itercount : ℚ) + 1], none, false, []⟩, s.opq)
    refStep := fun s => .ok (⟨some [(s.itercount : ℚ) + 1], 1, 0, false⟩, s.opq)
    restCand := fun _ _ => [5]
    restInvertible := fun _ _ => true
    restOpq := fun s => s.opq
    realImpr := fun _ v => .ok v
    clock := fun _ => 0
    callTime := fun _ => 0 }

/-- The returned result, if any. -/
def _root_.Rbfopt.OptRes.result? {O : Type} : OptRes O → Option (OptResult O)
  | .ret r => some r
  | _ => none

/-- The error raised, if any. -/
def _root_.Rbfopt.OptRes.error? {O : Type} : OptRes O → Option PyErr
  | .raised e => some e
  | _ => none

theorem run_value : ((optimize P env 40 100 (Alg.init P 0)).result?.map
    (fun r => (r.value, r.point, r.itercount, r.evalcount))) = some (1, [3], 4, 6) := by
  decide +kernel

theorem run_exists : ∃ r, optimize P env 40 100 (Alg.init P 0) = .ret r := by
  have := run_value
  cases h : optimize P env 40 100 (Alg.init P 0) with
  | ret r => exact ⟨r, rfl⟩
  | raised e => rw [h] at this; cases this
  | outOfFuel => rw [h] at this; cases this

end Rbfopt.Demo
