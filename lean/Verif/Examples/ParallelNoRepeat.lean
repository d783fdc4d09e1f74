import Verif.Examples.Parallel
import Verif.Examples.Domain
import Verif.Props.ParallelNoRepeat

/-!
# Concrete runs for C77 in the parallel engine
-/

namespace Rbfopt.Demo

/-- The hypotheses on distances, coordinates and samples are met. -/
theorem unscaledR : Unscaled PR envR where
  toOrig _ := rfl
  toInternal _ := rfl
  refl p := by simp [envR, env, dist1]
  symm p q := by simp only [envR, env, dist1]; exact abs_sub_comm _ _
  minDist := by norm_num [PR, P]
  epsZero := by norm_num [PR, P]
  spread := by
    intro a pts o h i j p p' q hij hi hj hd
    simp only [envR, env, Except.ok.injEq, Prod.mk.injEq] at h
    obtain ⟨rfl, -⟩ := h
    have hb : ∀ (k : ℕ) (r : Pt), ([[0], [10]] : List Pt)[k]? = some r →
        (k = 0 ∧ r = [0]) ∨ (k = 1 ∧ r = [10]) := by
      intro k r hk
      rcases k with _ | _ | k
      · left; simpa [eq_comm] using hk
      · right; simpa [eq_comm] using hk
      · simp at hk
    simp only [envR, env, dist1, PR, P] at hd ⊢
    rcases hb i p hi with ⟨rfl, rfl⟩ | ⟨rfl, rfl⟩ <;> rcases hb j p' hj with ⟨rfl, rfl⟩ | ⟨rfl, rfl⟩
    · exact absurd rfl hij
    · simp only [List.headD_cons] at hd ⊢
      rw [abs_le] at hd
      rw [lt_abs]; right; linarith [hd.2]
    · simp only [List.headD_cons] at hd ⊢
      rw [abs_le] at hd
      rw [lt_abs]; left; linarith [hd.1]
    · exact absurd rfl hij
  user := by simp [PR, P]
  values := by simp [PR, P]

/-- Searches propose integers. -/
def peZ : PEnv ℕ := { pe1 with proposes := fun p => ∃ z : ℤ, p = [(z : ℚ)] }

/-- C77 applies to all reachable states of the runs on the integers from 0 to 10: there are at most
eleven evaluations, and one for each lost evaluation. -/
example {c : PCtl} {s : PState ℕ} (h : PReach PR envR peZ 0 c s) :
    ((∀ i, (i, Fate.lost) ∉ s.hist) → (s.subs.map (fun x => envR.decode x.1)).Nodup) ∧
    s.subs.length ≤ 11 + s.hist.countP (fun x => decide (x.2 = Fate.lost)) := by
  have hprop : ∀ p, peZ.proposes p → Proposable (construct (1/1000000) intVars1) p := by
    rintro p ⟨z, rfl⟩; exact prop1 z
  have hrun : RunsOn PR envR (1/1000000) intVars1 .off :=
    ⟨runsOn.lower, runsOn.upper, runsOn.toInternal, runsOn.toOrig, runsOn.decode⟩
  refine ⟨fun hl => C77_parallel_never_twice (by decide +kernel) hrun hprop samples1
    (by simp [PR, P]) unscaledR rfl h hl, ?_⟩
  have := C77_parallel_finite (by decide +kernel) hrun hprop samples1
    (by simp [PR, P]) unscaledR rfl (by decide +kernel) h
  refine this.trans (Nat.add_le_add_right (by decide +kernel) _)

/-- Such a run, with a restart: four evaluations at different points; after the restart the samples
0 and 10 are taken from the records. -/
example : ∃ s : PState ℕ, PReach PR envR pe1 0 (.running 0 100) s ∧
    s.subs.map (fun x => x.1) = [[0], [10], [5], [7]] ∧
    s.alg.all.pos = [[0], [10], [5], [10], [0]] := by
  have h : (firstCall PR envR pe1 0 100 [0, 0] (actR ++ ticks 7 ++ [.harvest 0 (propose 7)])).map
      (fun s => (decide (s.subs.map (fun x => x.1) = [[0], [10], [5], [7]]),
        decide (s.alg.all.pos = [[0], [10], [5], [10], [0]]))) = some (true, true) := by
    decide +kernel
  obtain ⟨s, _, h1, h2⟩ := firstCall_exists (fun _ => trivial) h
  simp only [Prod.mk.injEq] at h2
  exact ⟨s, h1, of_decide_eq_true h2.1, of_decide_eq_true h2.2⟩

/-- The process was killed and the object loaded again. -/
def crashed (s : PState ℕ) : PState ℕ :=
  { s.fresh with hist := s.hist ++ s.evals.map (fun x => (x.id, Fate.lost)) }

/-- **C77** (parallel) Evaluations lost in a crash are in fact repeated: 5 is submitted, the process is
killed, the object is loaded, and 5 is submitted again. -/
theorem C77_parallel_lost_example : ∃ s : PState ℕ, PReach PR envR pe1 0 (.running 0 100) s ∧
    s.subs.map (fun x => x.1) = [[0], [10], [5], [5]] ∧ (2, Fate.lost) ∈ s.hist := by
  have h : (firstCall PR envR pe1 0 100 [0, 0] (ticks 7 ++ [.harvest 0 (propose 5)] ++ ticks 4)).map
      (fun s => (s.pc, s.alg.itercount,
        (match execRestart PR envR pe1 (crashed s).fresh [] with
          | some (.ok s') => (execs PR envR pe1 0 100 (withGap PR s')
            (ticks 7 ++ [.harvest 0 (propose 5)])).map (fun t =>
              decide (t.subs.map (fun x => x.1) = [[0], [10], [5], [5]] ∧
                (2, Fate.lost) ∈ t.hist))
          | _ => none))) = some (.evals 0, 0, some true) := by
    decide +kernel
  obtain ⟨s, _, h1, h2⟩ := firstCall_exists (fun _ => trivial) h
  simp only [Prod.mk.injEq] at h2
  obtain ⟨h2, h3, h4⟩ := h2
  split at h4
  · rename_i s' hs'
    rw [Option.map_eq_some_iff] at h4
    obtain ⟨t, h4, h5⟩ := h4
    have h5 := of_decide_eq_true h5
    have hl : PReach PR envR pe1 0 .idle (crashed s) := PReach.load h1 (by simp [h2])
    refine ⟨t, ?_, h5.1, h5.2⟩
    have hst := PStart.first (s0 := (crashed s)) (P := PR) (by decide) h3
            (execRestart_sound hs')
    have hc := PReach.call 100 hl hst
    rw [show (crashed s).alg.itercount = 0 from h3] at hc
    exact execs_sound (fun _ => trivial) _ h4 hc
  · cases h4

def PW : Params := { Demo.P with refFreq := 1, initPos := [[4 + 5/1000000]], initVal := [7] }

def envW : Env ℕ :=
  { envN with modelFails := fun s => (decide (s.cyc = 0 ∧ 1 ≤ s.itercount), s.opq) }

/-- **C77** (violation, parallel) The user's point, with its value given, is within `min_dist` of the
sample point 4.  The result of the evaluation at 4 is not recorded, and the restart evaluates the
black box at 4 again. -/
theorem C77_parallel_violated_near_user_point : ∃ s : PState ℕ,
    PReach PW envW pe1 0 (.running 0 100) s ∧
    s.subs.map (fun x => x.1) = [[0], [10], [4], [5], [4]] ∧ s.pc ≠ .raised .nameError ∧
    ∀ i, (i, Fate.lost) ∉ s.hist := by
  have h : (firstCall PW envW pe1 0 100 [0, 0] ([.tick, .collect 0] ++ ticks 6 ++
      [.harvest 0 (propose 5)] ++ ticks 4 ++ [.collect 0] ++ ticks 8 ++ [.harvest 0 noPoint] ++
      ticks 2 ++ [.restart []])).map
      (fun s => (decide (s.subs.map (fun x => x.1) = [[0], [10], [4], [5], [4]]),
        decide (s.pc ≠ .raised .nameError), decide (∀ x ∈ s.hist, x.2 ≠ Fate.lost))) =
          some (true, true, true) := by
    decide +kernel
  obtain ⟨s, _, h1, h2⟩ := firstCall_exists (fun _ => trivial) h
  simp only [Prod.mk.injEq] at h2
  exact ⟨s, h1, of_decide_eq_true h2.1, of_decide_eq_true h2.2.1, fun i hi =>
    of_decide_eq_true h2.2.2 _ hi rfl⟩

end Rbfopt.Demo
