import Verif.Examples.Discarded
import Verif.Props.PassNoisy

/-! # Iterations of two-phase runs (C98) -/

namespace Rbfopt.Demo

def P98 : Params := { P with twoPhase := true, maxNoisyEval := 100, maxNoisyIter := 2, maxIter := 50 }

/-- The local search proposes 9 and finds the closest node bumpier. -/
def env98 : Env ℕ :=
  { env with localSearch := fun s => .ok (⟨false, some [9], some ((0 : ℚ) : EVal), true, []⟩, s.opq) }

/-- **C98** Iterations of a two-phase run that meet the hypotheses of `C98_iteration`: the first one
evaluates the point 1 with both oracles, since the noisy value 6 ± 1 may be an improvement; the third
one, in accurate mode, takes the noisy node 10 out and evaluates it again. -/
theorem C98_example : (∀ p, env98.dist p p = 0) ∧ 0 ≤ P98.minDist ∧
    (∃ x y : Alg ℕ × Loc, Reach P98 env98 0 (.running 0 100 x.2) x.1 ∧
      pass P98 env98 x.1 x.2 = .ok y ∧ y.1.nAtRestart = x.1.nAtRestart ∧ x.1.mode = .noisy ∧
      x.1.all.val = [11, 51] ∧ y.1.all.val = [11, 51, 5] ∧ y.1.all.noisy = [true, true, false] ∧
      y.1.log.length = x.1.log.length + 2) ∧
    (∃ x y : Alg ℕ × Loc, Reach P98 env98 0 (.running 0 100 x.2) x.1 ∧
      pass P98 env98 x.1 x.2 = .ok y ∧ y.1.nAtRestart = x.1.nAtRestart ∧ x.1.mode = .accurate ∧
      x.1.all.pos = [[0], [10], [1], [2]] ∧ y.1.all.pos = [[0], [1], [2], [10]] ∧
      y.1.all.noisy = [true, false, false, false] ∧ y.1.all.val = [11, 5, 2, 50] ∧
      y.1.log.length = x.1.log.length + 1) := by
  refine ⟨fun p => by simp [env98, env, dist1], by decide +kernel, ?_, ?_⟩
  · have h1 : (after P98 env98 100 0).map (fun x => (decide (x.1.mode = .noisy ∧ x.1.all.val = [11, 51]),
        (pass P98 env98 x.1 x.2).toOption.map (fun y => decide (y.1.nAtRestart = x.1.nAtRestart ∧
          y.1.all.val = [11, 51, 5] ∧ y.1.all.noisy = [true, true, false] ∧
          y.1.log.length = x.1.log.length + 2)))) = some (true, some true) := by decide +kernel
    obtain ⟨x, hx, h2⟩ := Option.map_eq_some_iff.mp h1
    simp only [Prod.mk.injEq, decide_eq_true_eq] at h2
    obtain ⟨⟨a1, a2⟩, a3⟩ := h2
    obtain ⟨y, hy, a4⟩ := Option.map_eq_some_iff.mp a3
    simp only [decide_eq_true_eq] at a4
    exact ⟨x, y, after_reach hx, toOption_some hy, a4.1, a1, a2, a4.2⟩
  · have h1 : (after P98 env98 100 2).map (fun x => (decide (x.1.mode = .accurate ∧
        x.1.all.pos = [[0], [10], [1], [2]]),
        (pass P98 env98 x.1 x.2).toOption.map (fun y => decide (y.1.nAtRestart = x.1.nAtRestart ∧
          y.1.all.pos = [[0], [1], [2], [10]] ∧ y.1.all.noisy = [true, false, false, false] ∧
          y.1.all.val = [11, 5, 2, 50] ∧ y.1.log.length = x.1.log.length + 1)))) =
        some (true, some true) := by decide +kernel
    obtain ⟨x, hx, h2⟩ := Option.map_eq_some_iff.mp h1
    simp only [Prod.mk.injEq, decide_eq_true_eq] at h2
    obtain ⟨⟨a1, a2⟩, a3⟩ := h2
    obtain ⟨y, hy, a4⟩ := Option.map_eq_some_iff.mp a3
    simp only [decide_eq_true_eq] at a4
    exact ⟨x, y, after_reach hx, toOption_some hy, a4.1, a1, a2, a4.2⟩

end Rbfopt.Demo
