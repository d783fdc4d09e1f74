import Verif.Examples.ParallelStop
import Verif.Props.ParallelMoves

/-! # Concrete runs for C19, C21, C23 (parallel engine) -/

namespace Rbfopt.Demo

/-- `C19_parallel_submission`: the first search of the run is a refinement step, the second one the
first step of the cycle. -/
theorem C19_parallel_example : ∃ s s' t t' : PState ℕ,
    PReach PR envR pe1 0 (.running 0 100) s ∧ s.pc = .model ∧ PStep PR envR pe1 0 100 s s' ∧
    s'.searches = [⟨false, .ref⟩] ∧ s.searches = [] ∧
    PReach PR envR pe1 0 (.running 0 100) t ∧ t.pc = .model ∧ PStep PR envR pe1 0 100 t t' ∧
    t.searches = [⟨false, .ref⟩] ∧ t'.searches = [⟨false, .ref⟩, ⟨false, .inf⟩] ∧
    t.alg.step = 0 ∧ t'.alg.step = 1 := by
  have h : (firstCall PR envR pe1 0 100 [0, 0] (ticks 4)).map
      (fun s => (s.pc, decide (s.searches = []),
        (exec PR envR pe1 0 100 s .tick).map
          (fun s' => decide (s'.searches = [⟨false, .ref⟩])))) =
      some (.model, true, some true) := by
    decide +kernel
  have h' : (firstCall PR envR pe1 0 100 [0, 0] (ticks 9)).map
      (fun s => (s.pc, decide (s.searches = [⟨false, .ref⟩]), s.alg.step,
        (exec PR envR pe1 0 100 s .tick).map
          (fun s' => decide (s'.searches = [⟨false, .ref⟩, ⟨false, .inf⟩] ∧ s'.alg.step = 1)))) =
      some (.model, true, 0, some true) := by
    decide +kernel
  obtain ⟨s, _, h1, h2⟩ := firstCall_exists (fun _ => trivial) h
  obtain ⟨t, _, g1, g2⟩ := firstCall_exists (fun _ => trivial) h'
  simp only [Prod.mk.injEq, decide_eq_true_eq] at h2 g2
  obtain ⟨h2, h3, h4⟩ := h2
  obtain ⟨g2, g3, g4, g5⟩ := g2
  rw [Option.map_eq_some_iff] at h4 g5
  obtain ⟨s', h4, h5⟩ := h4
  obtain ⟨t', g5, g6⟩ := g5
  have g6 := of_decide_eq_true g6
  exact ⟨s, s', t, t', h1, h2, exec_sound (fun _ => trivial) h4, of_decide_eq_true h5, h3, g1, g2,
    exec_sound (fun _ => trivial) g5, g3, g6.1, g4, g6.2⟩

/-- `C21_parallel_frequency`: the bound is attained.  With frequency 1, at the end of the second
iteration of the call, one refinement evaluation has been made. -/
theorem C21_parallel_example : ∃ s : PState ℕ,
    CallReach PR envR pe1 0 { alg := Alg.init PR 0 } 100 s ∧ s.refSubs = 1 ∧ s.repeats = 0 ∧
    s.alg.itercount = 0 := by
  have h : (firstCall PR envR pe1 0 100 [0, 0] (ticks 7 ++ [.harvest 0 (propose 5)])).map
      (fun s => (s.refSubs, s.repeats, s.alg.itercount)) = some (1, 0, 0) := by
    decide +kernel
  obtain ⟨s, h0, _, h2⟩ := firstCall_exists (fun _ => trivial) h
  simp only [Prod.mk.injEq] at h2
  exact ⟨s, h0, h2⟩

/-- `C23_parallel_restart_reasons`: a run that restarts because the model cannot be built. -/
theorem C23_parallel_example : ∃ s s' : PState ℕ,
    PReach PR envR pe1 0 (.running 0 100) s ∧ PStep PR envR pe1 0 100 s s' ∧
    s.alg.nAtRestart = 0 ∧ s'.alg.nAtRestart = 3 ∧ s.pc = .model ∧ s.alg.step = 1 := by
  have h : (firstCall PR envR pe1 0 100 [0, 0] (ticks 7 ++ [.harvest 0 (propose 5)] ++ ticks 4 ++
        [.collect 0] ++ ticks 8 ++ [.harvest 0 noPoint] ++ ticks 2)).map
      (fun s => (s.pc, s.alg.nAtRestart, s.alg.step,
        (exec PR envR pe1 0 100 s (.restart [])).map (fun s' => s'.alg.nAtRestart))) =
      some (.model, 0, 1, some 3) := by
    decide +kernel
  obtain ⟨s, _, h1, h2⟩ := firstCall_exists (fun _ => trivial) h
  simp only [Prod.mk.injEq] at h2
  obtain ⟨h2, h3, h5, h4⟩ := h2
  rw [Option.map_eq_some_iff] at h4
  obtain ⟨s', h4, h6⟩ := h4
  exact ⟨s, s', h1, exec_sound (fun _ => trivial) h4, h3, h6, h2, h5⟩

/-- `C23_parallel_stalling`: an iteration that counts (first evaluation worse than the best initial
value), and one that does not (a discarded search). -/
theorem C23_parallel_stalling_example : ∃ s s' t t' : PState ℕ,
    PReach PR envR pe1 0 (.running 0 100) s ∧ PStep PR envR pe1 0 100 s s' ∧
    s'.alg.itercount = s.alg.itercount + 1 ∧ s'.alg.numStalled = 0 ∧ s'.alg.fminStall ≠ s.alg.fminStall ∧
    PReach PR envR pe1 0 (.running 0 100) t ∧ PStep PR envR pe1 0 100 t t' ∧
    t'.alg.itercount = t.alg.itercount + 1 ∧ t'.alg.numStalled = t.alg.numStalled ∧
    t.pc = .searches := by
  have h : (firstCall PR envR pe1 0 100 [0, 0] (ticks 7 ++ [.harvest 0 (propose 5)] ++ ticks 4)).map
      (fun s => ((exec PR envR pe1 0 100 s (.collect 0)).map
        (fun s' => decide (s'.alg.itercount = s.alg.itercount + 1 ∧ s'.alg.numStalled = 0 ∧
          s'.alg.fminStall ≠ s.alg.fminStall)))) =
      some (some true) := by
    decide +kernel
  have h' : (firstCall PR envR pe1 0 100 [0, 0] (ticks 7 ++ [.harvest 0 (propose 5)] ++ ticks 4 ++
        [.collect 0] ++ ticks 8)).map
      (fun s => (s.pc, (exec PR envR pe1 0 100 s (.harvest 0 noPoint)).map
        (fun s' => decide (s'.alg.itercount = s.alg.itercount + 1 ∧
          s'.alg.numStalled = s.alg.numStalled)))) =
      some (.searches, some true) := by
    decide +kernel
  obtain ⟨s, _, h1, h2⟩ := firstCall_exists (fun _ => trivial) h
  obtain ⟨t, _, g1, g2⟩ := firstCall_exists (fun _ => trivial) h'
  simp only [Prod.mk.injEq] at g2
  obtain ⟨g2, g3⟩ := g2
  rw [Option.map_eq_some_iff] at h2 g3
  obtain ⟨s', h2, h3⟩ := h2
  obtain ⟨t', g3, g4⟩ := g3
  have h3 := of_decide_eq_true h3
  have g4 := of_decide_eq_true g4
  exact ⟨s, s', t, t', h1, exec_sound (fun _ => trivial) h2, h3.1, h3.2.1, h3.2.2, g1,
    exec_sound (fun _ => trivial) g3, g4.1, g4.2, g2⟩

end Rbfopt.Demo
