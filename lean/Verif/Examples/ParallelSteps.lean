import Verif.Props.ParallelSteps
import Verif.Examples.Steps
import Verif.Examples.Parallel

/-!
# A parallel run with the steps of the code

The hypotheses of `C17_parallel_whole_run` hold: a worker makes a pure global search, whose result is sent
for evaluation; while it is evaluated, another worker makes a global step with the five samples and the
temporary node.
-/

namespace Rbfopt.StepDemo

open Rbfopt.Demo

theorem J_dim : 0 < J.dim := by rw [J_eq]; decide

theorem dist1n_self (p : Pt) : dist1n p p = 0 := by
  unfold dist1n
  induction p with
  | nil => rfl
  | cons a p ih => simp

/-- Any result of a step of the code. -/
def peCode : PEnv ℕ :=
  { pe1 with proposes := fun p => ∃ nodes, (∀ q ∈ nodes, CodePoint P env J q) ∧
      StepOutput env.dist J nodes p }

def samples5 : List Pt := [[1, 0, 0, 1], [3, 0, 0, 1], [5, 0, 1, 0], [7, 1, 0, 0], [9, 1, 0, 0]]

theorem samples5_code : ∀ q ∈ samples5, CodePoint P env J q := fun q hq =>
  .sample (a := Alg.init P 0) (o := 0) (by decide +kernel : env.initNodes (Alg.init P 0) = .ok (samples5, 0)) hq

theorem first_proposed : peCode.proposes [5/2, 0, 1, 0] :=
  ⟨[], by simp, .pureGlobal (m := .sampling) (base := 0) zeros_length (sampling_ok J.lower J.upper 4)
    (by decide +kernel)⟩

theorem second_proposed : peCode.proposes [53/50, 0, 1, 0] := by
  refine ⟨samples5 ++ [[5/2, 0, 1, 0]], fun q hq => ?_,
    .global (global_ok _ 7) (by decide +kernel)⟩
  rcases List.mem_append.mp hq with hq | hq
  · exact samples5_code q hq
  · rw [List.mem_singleton] at hq
    subst hq
    obtain ⟨nodes, h1, h2⟩ := first_proposed
    exact .step h1 h2

/-- Five samples, the result of the pure global search, and the result of the global step are submitted;
both searches were harvested before any evaluation they asked for was collected. -/
theorem C17_parallel_whole_run_example : ∃ s : PState ℕ,
    PReach P env peCode 0 (.running 0 100) s ∧
    s.subs.map (fun x => x.1) = samples5 ++ [[5/2, 0, 1, 0], [53/50, 0, 1, 0]] ∧
    s.evals.length = 2 ∧ ∀ x ∈ s.subs, FeasibleUser (1/1000000) vars (env.decode x.1) := by
  have h : (firstCall P env peCode 0 100 [0, 0, 0, 0, 0]
      (ticks 7 ++ [.harvest 0 { next := some [5/2, 0, 1, 0] }] ++ ticks 5 ++
        [.harvest 0 { next := some [53/50, 0, 1, 0] }])).map
      (fun s => (decide (s.subs.map (fun x => x.1) =
        samples5 ++ [[5/2, 0, 1, 0], [53/50, 0, 1, 0]]), decide (s.evals.length = 2))) =
      some (true, true) := by
    decide +kernel
  obtain ⟨s, h1, h2⟩ := firstCall_exists_ok (by
    intro a ha
    simp only [ticks, List.mem_append, List.mem_replicate, List.mem_singleton] at ha
    rcases ha with ((⟨-, rfl⟩ | rfl) | ⟨-, rfl⟩) | rfl
    · trivial
    · intro p hp
      simp only [Option.some.injEq] at hp
      subst hp; exact first_proposed
    · trivial
    · intro p hp
      simp only [Option.some.injEq] at hp
      subst hp; exact second_proposed) h
  simp only [Prod.mk.injEq, decide_eq_true_eq] at h2
  have h3 := h1.reach
  exact ⟨s, h3, h2.1, h2.2, (C17_parallel_whole_run vars_wf runs_on J_dim (fun p hp => hp) samples_ok
    dist1n_self (.inl rfl) (by simp [P, Demo.P]) h3).1⟩

end Rbfopt.StepDemo
