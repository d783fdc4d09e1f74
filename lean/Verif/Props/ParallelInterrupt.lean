import Verif.Props.ParallelNoRepeat
import Verif.Props.ParallelEnd

/-!
# C90: exceptions of the black box in parallel runs

`res.get()` re-raises the exception of a worker in the main process.  Nothing catches it: the call of
`optimize()` ends, and the results of all evaluations still running, and of the whole sample if a
restart was waiting for it, are dropped.  The reachable states (`PReach`) include those after such
exceptions, so that all other theorems about the parallel engine hold for them; this file describes
the exception itself and the next call.
-/

namespace Rbfopt

variable {O : Type} {P : Params} {env : Env O} {pe : PEnv O} {o : O} {c : PCtl} {s t : PState O}

/-- **C90** An exception changes no record: the records, the current nodes, the best and least values
with their indices, and the list of evaluations made by the main process are those before it. -/
theorem C90_records_survive (hc : PCut P env pe s t) :
    t.lose.alg.all = s.alg.all ∧ t.lose.alg.cur = s.alg.cur ∧ t.lose.alg.fbest = s.alg.fbest ∧
    t.lose.alg.fbestIdx = s.alg.fbestIdx ∧ t.lose.alg.fmin = s.alg.fmin ∧
    t.lose.alg.fminIdx = s.alg.fminIdx ∧ t.lose.alg.log = s.alg.log ∧
    t.lose.alg.itercount = s.alg.itercount := by
  obtain ⟨-, rfl | ⟨s1, hp, -, -, hr, hs⟩⟩ := hc.cases
  · exact ⟨rfl, rfl, rfl, rfl, rfl, rfl, rfl, rfl⟩
  · obtain ⟨pts, noisy, o, rfl, -, -⟩ := hr.frame
    rcases hs with rfl | ⟨o, rfl⟩
    · exact ⟨rfl, rfl, rfl, rfl, rfl, rfl, rfl, rfl⟩
    · exact ⟨rfl, rfl, rfl, rfl, rfl, rfl, rfl, rfl⟩

/-- **C90** What an exception loses: the evaluations that were running, and (`pts`) the sample of a
restart, if it was waiting.  The sample is counted although no result of it is kept. -/
theorem C90_losses (hc : PCut P env pe s t) :
    ∃ (pts : List Pt) (noisy : Bool),
      t.lose.subs = s.subs ++ pts.map (fun p => (p, noisy, Tag.init)) ∧
      t.lose.alg.evalcount = s.alg.evalcount + (if noisy then 0 else pts.length) ∧
      t.lose.alg.noisyEvalcount = s.alg.noisyEvalcount + (if noisy then pts.length else 0) ∧
      (pts ≠ [] → s.evals = []) ∧ t.lose.evals = [] ∧
      t.lose.hist = s.hist ++ s.evals.map (fun x => (x.id, Fate.lost)) ++
        (List.range' s.subs.length pts.length).map (fun i => (i, Fate.lost)) := by
  obtain ⟨-, rfl | ⟨s1, hp, he, -, hr, hs⟩⟩ := hc.cases
  · exact ⟨[], false, by simp [PState.lose, PState.fresh]⟩
  · have hse : s.evals = [] := hp.evals.symm.trans he
    obtain ⟨pts, noisy, o, rfl, -, -⟩ := hr.frame
    have hev : s1.alg.evalcount = s.alg.evalcount := congrArg Data.evalcount hp.data
    have hnev : s1.alg.noisyEvalcount = s.alg.noisyEvalcount := congrArg Data.noisyEvalcount hp.data
    refine ⟨pts, noisy, ?_, ?_, ?_, fun _ => hse, rfl, ?_⟩
    · simp only [PState.lose, PState.fresh, hp.subs]
    · simp only [PState.lose, PState.fresh, beginAlg, hev]
    · simp only [PState.lose, PState.fresh, beginAlg, hnev]
    · simp only [PState.lose, PState.fresh, hp.hist, hse, List.map_nil, List.append_nil, hp.subs]
      rw [← initJobs_ids noisy, List.map_map]
      rfl

/-- **C90** Between calls, also after exceptions, every evaluation that was ever submitted has exactly
one fate: its result was recorded, ignored, replaced by a new evaluation, or lost. -/
theorem C90_every_evaluation_has_one_fate (h : PReach P env pe o .idle s) (i : ℕ)
    (hi : i < s.subs.length) : ∃ f, (i, f) ∈ s.hist ∧ ∀ f', (i, f') ∈ s.hist → f' = f := by
  have hids := h.book.ids
  unfold PState.jobIds at hids
  rw [h.idle_evals, List.map_nil, List.nil_append] at hids
  have h1 : i ∈ s.hist.map (fun x => x.1) := hids.mem_iff.mpr (List.mem_range.mpr hi)
  obtain ⟨⟨i', f⟩, h2, h3⟩ := List.mem_map.mp h1
  simp only at h3
  subst h3
  refine ⟨f, h2, ?_⟩
  intro f' h4
  have hnd : (s.hist.map (fun x => x.1)).Nodup := hids.nodup_iff.mpr List.nodup_range
  exact congrArg Prod.snd (List.inj_on_of_nodup_map hnd h4 h2 rfl)

/-- What an interrupted restart leaves for the next call: a restart that is due. -/
def ParRestartDue (P : Params) (s : PState O) : Prop :=
  (parSkip P s = false ∧ shouldRestart P s.alg = true) ∨ s.alg.step = P.restorationStep

theorem harvestJob_cut {s' : PState O} {j : ℕ} {res : SearchRes}
    (h : harvestJob P env pe s j res = .ok s') : s'.cut = s.cut := by
  obtain ⟨job, rd, a, tb, hj, ha, hcase⟩ := harvestJob_cases h
  rcases hcase with rfl | ⟨p0, hp0, hus, ⟨b, v, hr, hre⟩ | ⟨hr, rfl⟩⟩
  · obtain ⟨nc, rc, rb, _, _, e⟩ := harvestDiscard_eq (P := P) (takeSearch s j rd a tb) job.tag
    rw [e]; rfl
  · obtain ⟨a1, e, gap, a2, hadd, hz, _, hg, he, rfl⟩ := harvestReuse_cases hre
    rfl
  · rfl

theorem submitNext_cut {s' : PState O} {r k : Bool}
    (h : submitNext P env s r k = .ok s') : s'.cut = s.cut := by
  unfold submitNext at h
  split at h
  · unfold submitRefine at h
    split at h
    · cases h
    · dsimp only at h
      split at h <;> cases h <;> rfl
  · cases h; rfl

theorem closeJob_cut {s' : PState O} {job : EvalJob}
    (h : closeJob P env pe s job = .ok s') : s'.cut = s.cut := by
  obtain ⟨hn, hne, a, gap, g, st, ha, _, rfl⟩ := closeJob_cases h
  rfl

/-- **C90** If a restart was interrupted and is due in the next call, that call does nothing before it
has completed a restart (`cut` is false from then on): as long as it has not, no search and no
evaluation has been submitted and nothing was recorded. -/
theorem C90_restart_repeated {s0 u : PState O} {pause : ℕ} (hd : ParRestartDue P s0)
    (hit : s0.alg.itercount ≠ 0) (h : CallReach P env pe o s0 pause u) (hcut : u.cut = true) :
    u.searches = [] ∧ u.evals = [] ∧ u.subs = s0.subs ∧ u.hist = s0.hist ∧
    u.alg.data = s0.alg.data ∧ ParRestartDue P u ∧ (u.pc = .model → u.alg.step = P.restorationStep) := by
  have hskip : ∀ {q : PState O}, ParRestartDue P q → parSkip P q = false := by
    rintro q (h | h)
    · exact h.1
    · unfold parSkip
      rw [h, decide_eq_false_iff_not]
      unfold Params.restorationStep Params.infStep Params.localStep
      omega
  have hbusy : ∀ {q : PState O}, q.evals = [] → q.searches = [] → parBusy q = false := by
    intro q h1 h2; simp [parBusy, h1, h2]
  induction h with
  | @start u h0 hst =>
    cases hst with
    | zeroFrequency _ => exact ⟨rfl, rfl, rfl, rfl, rfl, hd, fun h => by cases h⟩
    | firstFails _ h _ => exact absurd h hit
    | first _ h _ => exact absurd h hit
    | resumed _ _ =>
      unfold withGap at hcut ⊢
      split
      · exact ⟨rfl, rfl, rfl, rfl, rfl, hd, fun h => by cases h⟩
      · exact ⟨rfl, rfl, rfl, rfl, rfl, hd, fun h => by cases h⟩
  | @step u u' h hs ih =>
    have same : u.cut = true → u'.searches = u.searches → u'.evals = u.evals → u'.subs = u.subs →
        u'.hist = u.hist → u'.alg.data = u.alg.data → ParRestartDue P u' → u'.pc ≠ .model →
        u'.searches = [] ∧ u'.evals = [] ∧ u'.subs = s0.subs ∧ u'.hist = s0.hist ∧
        u'.alg.data = s0.alg.data ∧ ParRestartDue P u' ∧
        (u'.pc = .model → u'.alg.step = P.restorationStep) := by
      intro hc e1 e2 e3 e4 e5 e6 e7
      obtain ⟨g1, g2, g3, g4, g5, -, -⟩ := ih hc
      exact ⟨e1.trans g1, e2.trans g2, e3.trans g3, e4.trans g4, e5.trans g5, e6, fun h => absurd h e7⟩
    cases hs with
    | enter hp _ => exact same hcut rfl rfl rfl rfl rfl (ih hcut).2.2.2.2.2.1 (by simp)
    | leave hp _ => exact same hcut rfl rfl rfl rfl rfl (ih hcut).2.2.2.2.2.1 (by simp)
    | collect j hp hj =>
      exfalso
      have hcu : u.cut = true := by
        unfold PState.orRaise at hcut
        split at hcut
        · exact hcut
        · rename_i s1 hs1
          exact (collectJob_cut hs1).symm.trans hcut
      rw [(ih hcu).2.1] at hj
      simp at hj
    | evalsDone hp =>
      refine same hcut rfl rfl rfl rfl rfl (ih hcut).2.2.2.2.2.1 ?_
      dsimp only; split <;> simp
    | harvest j res hp hj _ _ =>
      exfalso
      have hcu : u.cut = true := by
        unfold PState.orRaise at hcut
        split at hcut
        · exact hcut
        · rename_i s1 hs1
          exact (harvestJob_cut hs1).symm.trans hcut
      rw [(ih hcu).1] at hj
      simp at hj
    | searchesDone hp => exact same hcut rfl rfl rfl rfl rfl (ih hcut).2.2.2.2.2.1 (by simp)
    | full hp _ => exact same hcut rfl rfl rfl rfl rfl (ih hcut).2.2.2.2.2.1 (by simp)
    | skip hp _ hsk => rw [hskip (ih hcut).2.2.2.2.2.1] at hsk; cases hsk
    | waitRestart hp _ _ _ hb =>
      rw [hbusy (ih hcut).2.1 (ih hcut).1] at hb; cases hb
    | restart hp _ _ _ _ hr =>
      unfold PState.orRaise at hcut ⊢
      split at hcut
      · exact same hcut rfl rfl rfl rfl rfl (ih hcut).2.2.2.2.2.1 (by simp [PState.orRaise])
      · have := restartPar_cut hr
        simp only at hcut
        rw [this] at hcut; cases hcut
    | noRestart hp _ _ hsh =>
      obtain ⟨g1, g2, g3, g4, g5, g6, g7⟩ := ih hcut
      refine ⟨g1, g2, g3, g4, g5, g6, fun _ => ?_⟩
      rcases g6 with g6 | g6
      · rw [g6.2] at hsh; cases hsh
      · exact g6
    | prepFails hp _ => exact same hcut rfl rfl rfl rfl rfl (ih hcut).2.2.2.2.2.1 (by simp)
    | underdetermined hp _ _ _ _ =>
      exact same hcut rfl rfl rfl rfl rfl (Or.inr ((ih hcut).2.2.2.2.2.2 hp)) (by simp)
    | noList hp _ _ _ _ => exact same hcut rfl rfl rfl rfl rfl (ih hcut).2.2.2.2.2.1 (by simp)
    | waitRestoration hp _ _ _ hb =>
      rw [hbusy (ih hcut).2.1 (ih hcut).1] at hb; cases hb
    | restoration hp _ _ _ _ hr =>
      unfold PState.orRaise at hcut ⊢
      split at hcut
      · exact same hcut rfl rfl rfl rfl rfl (ih hcut).2.2.2.2.2.1 (by simp [PState.orRaise])
      · have := restartPar_cut hr
        simp only at hcut
        rw [this] at hcut; cases hcut
    | submit reinit rankDef hp _ _ hst =>
      exfalso
      have hcu : u.cut = true := by
        unfold PState.orRaise at hcut
        split at hcut
        · exact hcut
        · rename_i s1 hs1
          exact (submitNext_cut hs1).symm.trans hcut
      exact hst ((ih hcu).2.2.2.2.2.2 hp)
    | close hp =>
      exfalso
      have hcu : u.cut = true := by
        unfold PState.orRaise at hcut
        split at hcut
        · exact hcut
        · rename_i s1 hs1
          exact (closeJob_cut hs1).symm.trans hcut
      have hr := h.reach
      have := hr.closing_evals hp
      rw [(ih hcu).2.1] at this
      cases this
    | finish hp => exact same hcut rfl rfl rfl rfl rfl (ih hcut).2.2.2.2.2.1 (by simp)

/-- **C90** If the initialization done by the first call was interrupted, the next call starts with it
again: its main loop is only entered after a completed restart. -/
theorem C90_first_restart_repeated {s0 u : PState O} (hit : s0.alg.itercount = 0)
    (h : PStart P env pe s0 u) (hpc : ∀ e, u.pc ≠ .raised e) : u.cut = false := by
  cases h with
  | zeroFrequency _ => exact absurd rfl (hpc _)
  | firstFails _ _ _ => exact absurd rfl (hpc _)
  | first _ _ hr =>
    have := restartPar_cut hr
    unfold withGap
    split <;> exact this
  | resumed _ h => exact absurd hit h

/-- **C90** When an interrupted restart is due again in the next call.  Always, if it was the restart
that replaces restoration, or if its cause was the number of discarded points; if its cause was
stalling, only if the budget of evaluations, which includes the lost sample, still allows a restart. -/
theorem C90_due_again (h0 : s.cut = false) (hc : PCut P env pe s t)
    (h1 : t.cut = true) :
    ParRestartDue P t.lose ∨
    (P.maxEval ≤ t.lose.alg.evalcount + 3 * (P.n + 1 + P.cycleLength) ∧
      s.alg.evalcount + 3 * (P.n + 1 + P.cycleLength) < P.maxEval ∧
      P.maxStalled ≤ s.alg.numStalled) := by
  cases hc with
  | eval _ _ => rw [h0] at h1; cases h1
  | search _ _ => rw [h0] at h1; cases h1
  | close _ => rw [h0] at h1; cases h1
  | restart _ _ hsk hsh _ hr =>
    obtain ⟨pts, noisy, o, rfl, -, -⟩ := hr.frame
    have hsh' := hsh
    unfold shouldRestart at hsh
    simp only [decide_eq_true_eq] at hsh
    by_cases hb : P.maxEval ≤ s.alg.evalcount + (if noisy then 0 else pts.length) +
        3 * (P.n + 1 + P.cycleLength)
    · obtain ⟨h2, h3 | ⟨h3, h4, h5⟩⟩ := hsh
      · refine Or.inl (Or.inl ⟨hsk, ?_⟩)
        unfold shouldRestart
        simp only [decide_eq_true_eq]
        exact ⟨h2, Or.inl h3⟩
      · exact Or.inr ⟨hb, h4, h3⟩
    · push Not at hb
      refine Or.inl (Or.inl ⟨hsk, ?_⟩)
      unfold shouldRestart
      simp only [decide_eq_true_eq]
      obtain ⟨h2, h3 | ⟨h3, h4, h5⟩⟩ := hsh
      · exact ⟨h2, Or.inl h3⟩
      · exact ⟨h2, Or.inr ⟨h3, hb, h5⟩⟩
  | restoration _ _ _ _ _ hr =>
    obtain ⟨pts, noisy, o, rfl, -, -⟩ := hr.frame
    exact Or.inl (Or.inr rfl)

end Rbfopt
