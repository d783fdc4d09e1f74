import Verif.Examples.Parallel
import Verif.Props.ParallelStop

/-! # Concrete runs for C12 -/

namespace Rbfopt.Demo

/-- A reachable state that meets the hypotheses of `C12_parallel_target_ends_call`: target 2 reached by
the evaluation of 5. -/
theorem C12_parallel_example : ∃ s : PState ℕ,
    PReach { PR with target := 2 } envR pe1 0 (.running 0 100) s ∧ s.pc = .top ∧
    (∃ v ∈ s.alg.all.val, TargetReached { PR with target := 2 } v) ∧
    s.alg.cur.pos.length = 3 ∧ s.alg.nInit = 2 := by
  have h : (firstCall { PR with target := 2 } envR pe1 0 100 [0, 0]
      (ticks 7 ++ [.harvest 0 (propose 5)] ++ ticks 4 ++ [.collect 0] ++ ticks 1)).map
      (fun s => (s.pc, decide (2 ∈ s.alg.all.val), s.alg.cur.pos.length, s.alg.nInit)) =
      some (.top, true, 3, 2) := by
    decide +kernel
  obtain ⟨s, _, h1, h2⟩ := firstCall_exists (fun _ => trivial) h
  simp only [Prod.mk.injEq, decide_eq_true_eq] at h2
  exact ⟨s, h1, h2.1, ⟨2, h2.2.1, by decide +kernel⟩, h2.2.2.1, h2.2.2.2⟩

/-- The run ends, for that reason: the hypotheses of `C12_parallel_stop_reason` are met. -/
theorem C12_parallel_returns_example : ∃ s : PState ℕ,
    CallReach { PR with target := 2 } envR pe1 0 { alg := Alg.init { PR with target := 2 } 0 } 100 s ∧
    s.pc = .done ∧ s.alg.itercount < PR.maxIter := by
  have h : (firstCall { PR with target := 2 } envR pe1 0 100 [0, 0]
      (ticks 7 ++ [.harvest 0 (propose 5)] ++ ticks 4 ++ [.collect 0] ++ ticks 3)).map
      (fun s => (s.pc, decide (s.alg.itercount < PR.maxIter))) = some (.done, true) := by
    decide +kernel
  obtain ⟨s, h0, h1, h2⟩ := firstCall_exists (fun _ => trivial) h
  simp only [Prod.mk.injEq, decide_eq_true_eq] at h2
  exact ⟨s, h0, h2.1, h2.2⟩

/-- At a restart the points 7 and 8 are sampled, with values 5 and 1. -/
def envGap : Env ℕ :=
  { envR with initNodes := fun s => .ok (if s.itercount = 0 then [[0], [10]] else [[7], [8]], s.opq) }

/-- **C12** (violation) After a restart inside a parallel call the gap is not recomputed: the sample has
reached the target 1, and the call goes on. -/
theorem C12_parallel_violated_stale_gap : ∃ s s' : PState ℕ,
    PReach { PR with target := 1 } envGap pe1 0 (.running 0 100) s ∧ s.pc = .top ∧
    (∃ v ∈ s.alg.all.val, TargetReached { PR with target := 1 } v) ∧
    PStep { PR with target := 1 } envGap pe1 0 100 s s' ∧ s'.pc = .evals s.alg.itercount := by
  have h : (firstCall { PR with target := 1 } envGap pe1 0 100 [0, 0]
      (ticks 7 ++ [.harvest 0 (propose 5)] ++ ticks 4 ++ [.collect 0] ++ ticks 8 ++
        [.harvest 0 noPoint] ++ ticks 2 ++ [.restart [0, 0]])).map
      (fun s => (s.pc, decide (1 ∈ s.alg.all.val),
        (exec { PR with target := 1 } envGap pe1 0 100 s .tick).map
          (fun s' => decide (s'.pc = .evals s.alg.itercount)))) = some (.top, true, some true) := by
    decide +kernel
  obtain ⟨s, _, h1, h2⟩ := firstCall_exists (fun _ => trivial) h
  simp only [Prod.mk.injEq, decide_eq_true_eq] at h2
  obtain ⟨h2, h3, h4⟩ := h2
  rw [Option.map_eq_some_iff] at h4
  obtain ⟨s', h4, h5⟩ := h4
  exact ⟨s, s', h1, h2, ⟨1, h3, by decide +kernel⟩, exec_sound (fun _ => trivial) h4,
    of_decide_eq_true h5⟩

end Rbfopt.Demo
