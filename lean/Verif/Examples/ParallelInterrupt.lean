import Verif.Examples.ParallelPhase
import Verif.Props.ParallelInterrupt

/-!
# Concrete interrupted runs of the parallel engine
-/

namespace Rbfopt.Demo

variable {O : Type}

/-- `restart()` interrupted while waiting for the sample. -/
def cutRestart (P : Params) (env : Env O) (pe : PEnv O) (s : PState O) : Option (PState O) :=
  match restartBegin P env s with
  | .error _ => none
  | .ok (s1, prev) =>
    if s1.evals ≠ [] ∧ 0 < initNeed P pe s.alg prev.pos.length then
      some ({ s1 with cut := true } : PState O) else none

theorem cutRestart_sound {P : Params} {env : Env O} {pe : PEnv O} {s t : PState O}
    (h : cutRestart P env pe s = some t) : RestartParCut P env pe s t := by
  unfold cutRestart at h
  split at h
  · cases h
  · rename_i s1 prev hb
    split at h
    · rename_i hc
      cases h
      exact .worker hb hc.1 hc.2
    · cases h

/-- A worker raises an exception while the restart at this point waits for its sample. -/
def cutHere (P : Params) (env : Env O) (pe : PEnv O) (s : PState O) : Option (PState O) :=
  if s.pc = .submit ∧ parFull pe s = false ∧ parSkip P s = false ∧ shouldRestart P s.alg = true ∧
      parBusy s = false then cutRestart P env pe s else none

theorem cutHere_sound {P : Params} {env : Env O} {pe : PEnv O} {s t : PState O}
    (h : cutHere P env pe s = some t) : PCut P env pe s t := by
  unfold cutHere at h
  split at h
  · rename_i hc
    exact .restart hc.1 hc.2.1 hc.2.2.1 hc.2.2.2.1 hc.2.2.2.2 (cutRestart_sound h)
  · cases h

/-- The next call of `optimize()`. -/
def nextCall (P : Params) (env : Env O) (pe : PEnv O) (s : PState O) (as : List Act) :
    Option (PState O) :=
  if P.refFreq ≠ 0 ∧ s.alg.itercount ≠ 0 then
    execs P env pe s.alg.itercount 100
      (withGap P { s.fresh with refCount := (s.alg.itercount : ℚ) / P.refFreq }) as
  else none

theorem nextCall_call {P : Params} {env : Env O} {pe : PEnv O} {o : O} {s u : PState O}
    {as : List Act} (hpr : ∀ p, pe.proposes p) (hr : PReach P env pe o .idle s)
    (h : nextCall P env pe s as = some u) : CallReach P env pe o s 100 u := by
  unfold nextCall at h
  split at h
  · rename_i hc
    exact execs_call hpr as h (.start hr (.resumed hc.1 hc.2))
  · cases h

theorem cutRun_exists {P : Params} {env : Env O} {pe : PEnv O} {o : O} {sel : List ℕ}
    {as bs : List Act} {α β : Type} {f : PState O → PState O → α} {g : PState O → β} {v : α} {w : β}
    (hpr : ∀ p, pe.proposes p)
    (h : (firstCall P env pe o 100 sel as).map (fun s => (cutHere P env pe s).map (fun t =>
      (f s t, (nextCall P env pe t.lose bs).map g))) = some (some (v, some w))) :
    ∃ s t u : PState O, PReach P env pe o (.running 0 100) s ∧ PCut P env pe s t ∧
      PReach P env pe o .idle t.lose ∧ CallReach P env pe o t.lose 100 u ∧ f s t = v ∧ g u = w := by
  obtain ⟨s, -, h1, h2⟩ := firstCall_exists hpr h
  rw [Option.map_eq_some_iff] at h2
  obtain ⟨t, h3, h4⟩ := h2
  simp only [Prod.mk.injEq] at h4
  obtain ⟨h4, h5⟩ := h4
  rw [Option.map_eq_some_iff] at h5
  obtain ⟨u, h5, h6⟩ := h5
  have hc := cutHere_sound h3
  have hi := PReach.raises h1 hc
  exact ⟨s, t, u, h1, hc, hi, nextCall_call hpr hi h5, h4, h6⟩

/-- One iteration without improvement makes the run stalled; 19 or 30 evaluations. -/
def PI (maxEval : ℕ) : Params :=
  { Demo.P with maxStalled := 1, maxEval := maxEval, maxIter := 50, refFreq := 1000
                discWindow := 30 }

/-- The sample is 0, 10 at first, and 1, 9 in restarts. -/
def envI : Env ℕ :=
  { Demo.env with
    initNodes := fun s => .ok (if s.itercount = 0 then [[0], [10]] else [[1], [9]], s.opq) }

def pe5 : PEnv ℕ :=
  { pe1 with acc := fun i => [10, 50, 20][i]?.getD 30, noisyRes := fun _ => (20, 0, 0) }

/-- 5 is evaluated without improvement, then searches find nothing until a restart is due. -/
def actI : List Act :=
  ticks 7 ++ [.harvest 0 (propose 5)] ++ ticks 4 ++ [.collect 0, .tick] ++ roundWith noPoint ++
    roundWith noPoint ++ ticks 2 ++ [.harvest 0 noPoint, .tick]

/-- **C90** A concrete run in which a restart is interrupted and repeated by the next call: the first
sample 1, 9 of the restart (evaluations 3 and 4) is lost, although counted; the next call samples
1, 9 again. -/
theorem C90_restart_repeated_example : ∃ s t u : PState ℕ,
    PReach (PI 30) envI pe5 0 (.running 0 100) s ∧ PCut (PI 30) envI pe5 s t ∧
    CallReach (PI 30) envI pe5 0 t.lose 100 u ∧ s.cut = false ∧ t.cut = true ∧
    ParRestartDue (PI 30) t.lose ∧ s.alg.evalcount = 3 ∧ t.lose.alg.evalcount = 5 ∧
    u.cut = false ∧ u.alg.cur.pos = [[1], [9]] ∧ u.alg.all.pos = [[0], [10], [5], [1], [9]] ∧
    u.alg.evalcount = 7 ∧
    u.hist = [(0, .recorded), (1, .recorded), (2, .recorded), (3, .lost), (4, .lost),
      (5, .recorded), (6, .recorded)] := by
  have h : (firstCall (PI 30) envI pe5 0 100 [0, 0] actI).map (fun s =>
      (cutHere (PI 30) envI pe5 s).map (fun t =>
      ([decide (s.cut = false ∧ t.cut = true), decide (parSkip (PI 30) t.lose = false ∧
          shouldRestart (PI 30) t.lose.alg = true),
        decide (s.alg.evalcount = 3 ∧ t.lose.alg.evalcount = 5)],
        (nextCall (PI 30) envI pe5 t.lose (ticks 3 ++ [.restart [0, 0]])).map (fun u =>
          [decide (u.cut = false), decide (u.alg.cur.pos = [[1], [9]]),
            decide (u.alg.all.pos = [[0], [10], [5], [1], [9]]), decide (u.alg.evalcount = 7),
            decide (u.hist = [(0, .recorded), (1, .recorded), (2, .recorded), (3, .lost),
              (4, .lost), (5, .recorded), (6, .recorded)])])))) =
      some (some ([true, true, true], some [true, true, true, true, true])) := by
    decide +kernel
  obtain ⟨s, t, u, h1, h2, -, h3, h4, h5⟩ := cutRun_exists (fun _ => trivial) h
  simp only [List.cons.injEq, decide_eq_true_eq, and_true] at h4 h5
  exact ⟨s, t, u, h1, h2, h3, h4.1.1, h4.1.2, Or.inl h4.2.1, h4.2.2.1, h4.2.2.2, h5.1, h5.2.1,
    h5.2.2.1, h5.2.2.2.1, h5.2.2.2.2⟩

/-- **C90** (violation) The same run with a budget of 19 evaluations: the lost sample is counted, so
that the restart is no longer due, and the next call goes on with the nodes 0, 10, 5 of before, although
the object takes these for records of before a restart (`num_nodes_at_restart` is 3): the current
nodes are not the records since then. -/
theorem C90_violated_restart_forgotten : ∃ s t u : PState ℕ,
    PReach (PI 19) envI pe5 0 (.running 0 100) s ∧ PCut (PI 19) envI pe5 s t ∧
    CallReach (PI 19) envI pe5 0 t.lose 100 u ∧ u.cut = true ∧ u.alg.nAtRestart = 3 ∧
    u.alg.all.pos = [[0], [10], [5], [6]] ∧ u.alg.cur.pos = [[0], [10], [5], [6]] := by
  have h : (firstCall (PI 19) envI pe5 0 100 [0, 0] actI).map (fun s =>
      (cutHere (PI 19) envI pe5 s).map (fun t => (true,
        (nextCall (PI 19) envI pe5 t.lose (ticks 7 ++ [.harvest 0 (propose 6)] ++ ticks 4 ++
          [.collect 0])).map (fun u =>
          [decide (u.cut = true), decide (u.alg.nAtRestart = 3),
            decide (u.alg.all.pos = [[0], [10], [5], [6]]),
            decide (u.alg.cur.pos = [[0], [10], [5], [6]])])))) =
      some (some (true, some [true, true, true, true])) := by
    decide +kernel
  obtain ⟨s, t, u, h1, h2, -, h3, -, h5⟩ := cutRun_exists (fun _ => trivial) h
  simp only [List.cons.injEq, decide_eq_true_eq, and_true] at h5
  exact ⟨s, t, u, h1, h2, h3, h5.1, h5.2.1, h5.2.2.1, h5.2.2.2⟩

/-- Two-phase; all samples are evaluated accurately. -/
def PJ : Params := { PI 18 with twoPhase := true, maxNoisyRestarts := 0, maxNoisyIter := 50 }

/-- 6 is evaluated; then a local search is running. -/
def actJ : List Act :=
  ticks 7 ++ [.harvest 0 (propose 6)] ++ ticks 4 ++ [.collect 0, .tick] ++ roundWith noPoint ++
    roundWith noPoint ++ ticks 2

/-- **C90** (violation) In two-phase optimization the consequence of a forgotten restart is that
records are destroyed: the local search asks for the node 0 to be evaluated again, which removes the
node 0, but from the records the point 6, which stays a node. -/
theorem C90_violated_record_destroyed : ∃ s t u u' : PState ℕ,
    PReach PJ envI pe5 0 (.running 0 100) s ∧ PCut PJ envI pe5 s t ∧
    CallReach PJ envI pe5 0 t.lose 100 u ∧ CallReach PJ envI pe5 0 t.lose 100 u' ∧
    u.alg.all.pos = [[0], [10], [5], [6]] ∧ u.alg.cur.pos = [[0], [10], [5], [6]] ∧
    u'.alg.all.pos = [[0], [10], [5]] ∧ u'.alg.cur.pos = [[10], [5], [6]] := by
  have h : (firstCall PJ envI pe5 0 100 [0, 0] actI).map (fun s =>
      (cutHere PJ envI pe5 s).map (fun t => (decide (t.lose.alg.itercount = 4),
        (nextCall PJ envI pe5 t.lose actJ).map (fun u =>
          ([decide (u.alg.all.pos = [[0], [10], [5], [6]]),
            decide (u.alg.cur.pos = [[0], [10], [5], [6]])],
          (exec PJ envI pe5 4 100 u (.harvest 0 (again 0 0))).map (fun u' =>
            [decide (u'.alg.all.pos = [[0], [10], [5]]),
              decide (u'.alg.cur.pos = [[10], [5], [6]])])))))) =
      some (some (true, some ([true, true], some [true, true]))) := by
    decide +kernel
  obtain ⟨s, t, u, h1, h2, -, h3, h4, h5⟩ := cutRun_exists (fun _ => trivial) h
  simp only [decide_eq_true_eq] at h4
  simp only [Prod.mk.injEq, List.cons.injEq, decide_eq_true_eq, and_true] at h5
  obtain ⟨h5, h6⟩ := h5
  rw [Option.map_eq_some_iff] at h6
  obtain ⟨u', h6, h7⟩ := h6
  simp only [List.cons.injEq, decide_eq_true_eq, and_true] at h7
  have hs := exec_sound (fun _ => trivial) h6
  rw [← h4] at hs
  exact ⟨s, t, u, u', h1, h2, h3, .step h3 hs, h5.1, h5.2, h7.1, h7.2⟩

end Rbfopt.Demo
