import Verif.Props.ParallelFreq

/-!
# What one step of a parallel run does to the position in the cycle and to the stalling counter
(C19, C23)
-/

namespace Rbfopt

variable {O : Type} {P : Params} {env : Env O} {pe : PEnv O} {o : O} {c : PCtl} {s s' : PState O}

/-- A parallel run restarts for one of these reasons: the restart rule applies, or the interpolation
model cannot be built (with too few points, or although the underdetermined system was tried already),
or this happened before and the run was waiting for outstanding results. -/
def ParRestartReason (P : Params) (env : Env O) (s : PState O) : Prop :=
  (s.pc = .submit ∧ RestartDue P s.alg) ∨
  (s.pc = .model ∧ s.alg.step = P.numGlobal + 3) ∨
  (s.pc = .model ∧ (∃ a : Alg O, (env.modelFails a).1 = true ∧ a.cur = s.alg.cur) ∧
    (s.alg.cur.pos.length + s.tPos.length < P.n + 1 ∨ s.alg.solveUnder = true))

/-- The possible effects of one step. -/
inductive ParMove (P : Params) (env : Env O) (s s' : PState O) : Prop
  /-- nothing happens to the counters; `uncounted`: a search was discarded, or the run is shutting
  down -/
  | keep : s'.alg.step = s.alg.step → s'.alg.cyc = s.alg.cyc → s'.alg.numStalled = s.alg.numStalled →
      s'.alg.fminStall = s.alg.fminStall → s'.alg.nAtRestart = s.alg.nAtRestart →
      (s'.alg.itercount = s.alg.itercount ∨ (s'.alg.itercount = s.alg.itercount + 1 ∧
        ((∃ l, s.pc = .closing l) ∨
         (s.pc = .searches ∧ s'.subs = s.subs ∧ s'.hist = s.hist ∧ s'.searches.length + 1 = s.searches.length)))) →
      ParMove P env s s'
  /-- an iteration that counts -/
  | iteration : s'.alg.step = s.alg.step → s'.alg.cyc = s.alg.cyc → StallRule P s.alg s'.alg →
      s'.alg.nAtRestart = s.alg.nAtRestart → s'.alg.itercount = s.alg.itercount + 1 →
      ((∃ b, s.pc = .evals b) ∨ s.pc = .searches) → ParMove P env s s'
  /-- the cycle advances -/
  | next : NextStep P s.alg.step s.alg.cyc s'.alg.step s'.alg.cyc →
      s'.alg.numStalled = s.alg.numStalled → s'.alg.fminStall = s.alg.fminStall →
      s'.alg.nAtRestart = s.alg.nAtRestart → s'.alg.itercount = s.alg.itercount →
      (s.pc = .model ∨ (s.pc = .submit ∧
        ((s.alg.step = 0 ∧ P.doInf = false) ∨ (s.alg.step = P.numGlobal + 1 ∧ P.doLocal = false)))) →
      ParMove P env s s'
  | restart : ParRestartReason P env s → s.evals = [] → s.searches = [] →
      s'.alg.step = P.firstStep → s'.alg.cyc = s.alg.cyc + 1 → s'.alg.numStalled = 0 →
      s'.alg.fminStall = s'.alg.fmin → s'.alg.nAtRestart = s.alg.all.pos.length →
      s'.alg.itercount = s.alg.itercount → ParMove P env s s'
  /-- wait for the outstanding results before a restart -/
  | wait : s.pc = .model → (s.evals ≠ [] ∨ s.searches ≠ []) → s'.alg.step = P.numGlobal + 3 →
      s'.alg.cyc = s.alg.cyc → s'.alg.numStalled = s.alg.numStalled →
      s'.alg.fminStall = s.alg.fminStall → s'.alg.nAtRestart = s.alg.nAtRestart →
      s'.alg.itercount = s.alg.itercount →
      (s.alg.step = P.numGlobal + 3 ∨
        ((∃ a : Alg O, (env.modelFails a).1 = true ∧ a.cur = s.alg.cur) ∧
          (s.alg.cur.pos.length + s.tPos.length < P.n + 1 ∨ s.alg.solveUnder = true))) →
      ParMove P env s s'

theorem submitRefine_frame {t t' : PState O} {r1 r2 : Bool} (h : submitRefine P env t r1 r2 = .ok t') :
    t'.alg.numStalled = t.alg.numStalled ∧ t'.alg.fminStall = t.alg.fminStall ∧
    t'.alg.nAtRestart = t.alg.nAtRestart ∧ t'.alg.itercount = t.alg.itercount := by
  unfold submitRefine at h
  split at h
  · cases h
  · rename_i a ha
    have hd : a.numStalled = t.alg.numStalled ∧ a.fminStall = t.alg.fminStall ∧
        a.nAtRestart = t.alg.nAtRestart ∧ a.itercount = t.alg.itercount := by
      split at ha
      · rcases initRefIfNeeded_cases ha with ⟨-, -, set, rad, o, -, rfl⟩ | ⟨-, rfl⟩ <;>
          exact ⟨rfl, rfl, rfl, rfl⟩
      · cases ha; exact ⟨rfl, rfl, rfl, rfl⟩
    dsimp only at h
    split at h
    · cases h; exact hd
    · cases h; exact hd

theorem endPass_iter {a b : Alg O} (h : endPass P a = .ok b) :
    b.itercount = a.itercount + 1 ∧ b.nAtRestart = a.nAtRestart := by
  obtain ⟨h1, -, -, -, -, -, -, -, -, -, -, -, -, -, -, -, -, h2, -⟩ := endPass_ctl h
  exact ⟨h1, h2⟩

theorem PStep.move {start pause : ℕ} (h : PReach P env pe o (.running start pause) s)
    (hs : PStep P env pe start pause s s') : ParMove P env s s' := by
  have hrange := h.step_range
  have same : ∀ {t : PState O}, t.alg = s.alg → ParMove P env s t := by
    intro t ht
    exact .keep (by rw [ht]) (by rw [ht]) (by rw [ht]) (by rw [ht]) (by rw [ht]) (.inl (by rw [ht]))
  have hre : ∀ {t : PState O} {r : Except PyErr (PState O)} {pc : PC},
      ParRestartReason P env s → parBusy s = false → RestartPar P env pe t r →
      t.alg.cyc = s.alg.cyc → t.alg.all = s.alg.all → t.alg.itercount = s.alg.itercount →
      ParMove P env s (s.orRaise pc r) := by
    intro t r pc hreason hb hr h1 h2 h3
    unfold PState.orRaise
    split
    · exact same rfl
    · obtain ⟨pts, noisy, o, done, rest, prev, u, calls, a, m, M, i, hq⟩ := restartPar_ok hr
      have hq' := hq.install
      have hb' : ¬ (s.evals ≠ [] ∨ s.searches ≠ []) := of_decide_eq_false hb
      push Not at hb'
      rw [hq.eq]
      refine .restart hreason hb'.1 hb'.2 hq'.step ?_ hq'.numStalled (hq'.fminStall.trans hq'.fmin.symm)
        ?_ ?_
      · have := hq'.cyc
        dsimp only [PState.fates]
        rw [this, ← h1]; rfl
      · have := hq'.nAt
        dsimp only [PState.fates]
        rw [this, ← h2]; rfl
      · have := hq'.itercount
        dsimp only [PState.fates]
        rw [this, ← h3]; rfl
  have hfail : ∀ {o o' : O} {f : Bool}, env.modelFails { s.alg with opq := o } = (f, o') →
      (f = true ∧ ¬ (P.n + 1 ≤ s.alg.cur.pos.length + s.tPos.length ∧ s.alg.solveUnder = false) ∧
        pe.noCvList s.alg = false) ∨ (f = false ∧ s.alg.step = P.restorationStep) →
      s.alg.step = P.numGlobal + 3 ∨
        ((∃ a : Alg O, (env.modelFails a).1 = true ∧ a.cur = s.alg.cur) ∧
          (s.alg.cur.pos.length + s.tPos.length < P.n + 1 ∨ s.alg.solveUnder = true)) := by
    intro o o' f hf hc
    rcases hc with ⟨h1, h2, -⟩ | ⟨-, h2⟩
    · right
      refine ⟨⟨{ s.alg with opq := o }, by rw [hf]; exact h1, rfl⟩, ?_⟩
      by_cases h3 : s.alg.solveUnder = true
      · exact .inr h3
      · left
        by_contra h4
        exact h2 ⟨by omega, by simpa using h3⟩
    · exact .inl h2
  cases hs with
  | enter => exact same rfl
  | leave => exact same rfl
  | evalsDone => exact same rfl
  | searchesDone => exact same rfl
  | full => exact same rfl
  | waitRestart => exact same rfl
  | noRestart => exact same rfl
  | prepFails => exact same rfl
  | noList => exact same rfl
  | finish => exact same rfl
  | underdetermined => exact .keep rfl rfl rfl rfl rfl (.inl rfl)
  | skip hp hf hsk =>
    have hsk' : (s.alg.step = P.infStep ∧ P.doInf = false) ∨
        (s.alg.step = P.localStep ∧ P.doLocal = false) := of_decide_eq_true hsk
    have hle : s.alg.step ≤ P.numGlobal + 1 := by
      rcases hsk' with ⟨h1, -⟩ | ⟨h1, -⟩
      · rw [h1]; unfold Params.infStep; omega
      · rw [h1]; unfold Params.localStep; omega
    exact .next (advanceStep_next hle) rfl rfl rfl rfl (.inr ⟨hp, hsk'⟩)
  | waitRestoration hp _ hf hc hb =>
    exact .wait hp (of_decide_eq_true hb) rfl rfl rfl rfl rfl rfl (hfail hf hc)
  | restart hp _ _ hd hb hr =>
    exact hre (.inl ⟨hp, shouldRestart_iff.mp hd⟩) hb hr rfl rfl rfl
  | restoration hp _ hf hc hb hr =>
    refine hre ?_ hb hr rfl rfl rfl
    rcases hfail hf hc with h1 | h1
    · exact .inr (.inl ⟨hp, h1⟩)
    · exact .inr (.inr ⟨hp, h1⟩)
  | submit r1 r2 hp _ _ hne =>
    have hle : s.alg.step ≤ P.numGlobal + 1 := hrange.resolve_right hne
    unfold PState.orRaise
    split
    · exact same rfl
    · rename_i s1 hc
      unfold submitNext at hc
      split at hc
      · have hfr := submitRefine_frame hc
        rcases submitRefine_step hc with ⟨a, rfl, h1, h2⟩ | ⟨a, b, rfl, h1, h2, -⟩
        · exact .keep h1 h2 hfr.1 hfr.2.1 hfr.2.2.1 (.inl hfr.2.2.2)
        · refine .next ?_ hfr.1 hfr.2.1 hfr.2.2.1 hfr.2.2.2 (.inl hp)
          have h1' : a.step = s.alg.step := h1
          have h2' : a.cyc = s.alg.cyc := h2
          have := advanceStep_next (P := P) (a := a) (by rw [h1']; exact hle)
          rw [h1', h2'] at this
          exact this
      · cases hc
        exact .next (advanceStep_next (a := { s.alg with opq := _ }) hle) rfl rfl rfl rfl (.inl hp)
  | @collect b j hp hj =>
    unfold PState.orRaise
    split
    · exact same rfl
    · rename_i s1 hc
      obtain ⟨job', -, hmore⟩ := collectJob_more hc
      obtain ⟨job, d, -, -, hcase⟩ := collectJob_cases hc
      rcases hcase with ⟨_, tb, rfl⟩ | ⟨_, hn, _, a, ha, rfl⟩ |
        ⟨_, gap, a, a', rc, rb, hg, hda, hit, hst, hcy, ha, _, _, rfl⟩
      · exact same rfl
      · have h1 := endPass_step ha
        have h2 := endPass_iter ha
        exact .iteration h1.1 h1.2 (.of_endPass ha rfl rfl) h2.2 h2.1 (.inl ⟨_, hp⟩)
      · have h1 := endPass_step ha
        have h2 := endPass_iter ha
        have h3 : a.nAtRestart = s.alg.nAtRestart := by
          have e1 : a.nAtRestart = _ := congrArg Data.nAtRestart hda
          have e2 : (updateLog (addJob pe env s.alg job) (jobResult pe job).1 gap).nAtRestart =
              (addJob pe env s.alg job).nAtRestart := by
            obtain ⟨g', st, e⟩ := updateLog_frame (addJob pe env s.alg job) (jobResult pe job).1 gap
            rw [e]
          have e3 := (addJob_spec (pe := pe) (env := env) s.alg job).rest.2.2.2.2.1
          exact e1.trans (e2.trans e3)
        refine .iteration (h1.1.trans hst) (h1.2.trans hcy.1) ?_ (h2.2.trans h3)
          (by rw [← hit]; exact h2.1) (.inl ⟨_, hp⟩)
        rcases hmore with ⟨hm, -⟩ | ⟨hm, -⟩ | ⟨-, -, -, -, hm⟩
        · simp [PState.fate, takeJob, PState.popTemp] at hm
        · simp [PState.fate, takeJob, PState.popTemp] at hm
        · exact hm
  | harvest j res hp hj hi hprop =>
    unfold PState.orRaise
    split
    · exact same rfl
    · rename_i s1 hc
      obtain ⟨job', -, hse, hhi, -⟩ := harvestJob_more hc
      obtain ⟨job, rd, a, tb, -, ha, hcase⟩ := harvestJob_cases hc
      have ha' : a.step = s.alg.step ∧ a.cyc = s.alg.cyc ∧ a.numStalled = s.alg.numStalled ∧
          a.fminStall = s.alg.fminStall ∧ a.itercount = s.alg.itercount ∧
          a.nAtRestart = s.alg.nAtRestart := by
        rcases ha with rfl | ⟨_, _, _, _, _, h⟩
        · exact ⟨rfl, rfl, rfl, rfl, rfl, rfl⟩
        · obtain ⟨_, _, rfl⟩ := removeNode_spec h
          exact ⟨rfl, rfl, rfl, rfl, rfl, rfl⟩
      obtain ⟨a1, a2, a3, a4, a5, a6⟩ := ha'
      have hlen : s1.searches.length + 1 = s.searches.length := by
        rw [hse, List.length_eraseIdx_of_lt hj]; omega
      rcases hcase with rfl | ⟨p0, hp0, hu, ⟨b, v, -, hre⟩ | ⟨-, rfl⟩⟩
      · unfold harvestDiscard at hlen ⊢
        by_cases ht : job.tag = .ref
        · rw [if_pos ht] at hlen ⊢
          exact .keep a1 a2 a3 a4 a6 (.inr ⟨by show a.itercount + 1 = _; rw [a5], .inr ⟨hp, rfl, rfl, hlen⟩⟩)
        · rw [if_neg ht] at hlen ⊢
          exact .keep a1 a2 a3 a4 a6 (.inr ⟨by show a.itercount + 1 = _; rw [a5], .inr ⟨hp, rfl, rfl, hlen⟩⟩)
      · obtain ⟨b1, e, gap, b2, hadd, hz, _, hg, he, rfl⟩ := harvestReuse_cases hre
        have h1 := endPass_step he
        have h2 := endPass_iter he
        have e3 := updateLog_stall (a := b1) (v := v) (g := gap)
        obtain ⟨g', st, e'⟩ := updateLog_frame b1 v gap
        rw [e'] at h1 h2
        have h1' : b1.step = a.step := hadd.ctl.2.1
        have h2' : b1.cyc = a.cyc := hadd.ctl.2.2.1
        have h3' : b1.itercount = a.itercount := hadd.ctl.1
        have h4' : b1.nAtRestart = a.nAtRestart := hadd.rest.2.2.2.2.1
        have h5' : b1.numStalled = a.numStalled := hadd.ctl.2.2.2.2.1
        have h6' : b1.fminStall = a.fminStall := hadd.ctl.2.2.2.2.2.1
        exact .iteration (h1.1.trans (h1'.trans a1)) (h1.2.trans (h2'.trans a2))
          (.of_endPass he (e3.1.trans (h5'.trans a3)) (e3.2.trans (h6'.trans a4)))
          (h2.2.trans (h4'.trans a6)) (h2.1.trans (by show b1.itercount + 1 = _; rw [h3', a5])) (.inr hp)
      · exact .keep a1 a2 a3 a4 a6 (.inl a5)
  | close hp =>
    unfold PState.orRaise
    split
    · exact same rfl
    · rename_i s1 hc
      obtain ⟨hn, hne, a, gap, g, st, ha, _, rfl⟩ := closeJob_cases hc
      exact .keep ha.ctl.2.1 ha.ctl.2.2.1 ha.ctl.2.2.2.2.1 ha.ctl.2.2.2.2.2.1 ha.rest.2.2.2.2.1
        (.inr ⟨rfl, .inl ⟨_, hp⟩⟩)

/-- **C19** (parallel) How the position in the cycle changes in one step of a parallel run: not at all;
to the next step of the cycle, when a search is started (or its model fails) or when the current step is
switched off; back to the first step with a new cycle, at a restart, with no evaluation or search
outstanding; or to the restoration step, when the interpolation model fails while results are
outstanding. -/
theorem C19_parallel_moves {start pause : ℕ} (h : PReach P env pe o (.running start pause) s)
    (hs : PStep P env pe start pause s s') :
    (s'.alg.step = s.alg.step ∧ s'.alg.cyc = s.alg.cyc) ∨
    (NextStep P s.alg.step s.alg.cyc s'.alg.step s'.alg.cyc ∧
      (s.pc = .model ∨ (s.pc = .submit ∧
        ((s.alg.step = 0 ∧ P.doInf = false) ∨ (s.alg.step = P.numGlobal + 1 ∧ P.doLocal = false))))) ∨
    (s'.alg.step = P.firstStep ∧ s'.alg.cyc = s.alg.cyc + 1 ∧ s.evals = [] ∧ s.searches = [] ∧
      ParRestartReason P env s) ∨
    (s'.alg.step = P.numGlobal + 3 ∧ s'.alg.cyc = s.alg.cyc ∧ s.pc = .model ∧
      (s.evals ≠ [] ∨ s.searches ≠ [])) := by
  cases PStep.move h hs with
  | keep h1 h2 => exact .inl ⟨h1, h2⟩
  | iteration h1 h2 => exact .inl ⟨h1, h2⟩
  | next h1 _ _ _ _ h2 => exact .inr (.inl ⟨h1, h2⟩)
  | restart h1 h2 h3 h4 h5 => exact .inr (.inr (.inl ⟨h4, h5, h2, h3, h1⟩))
  | wait h1 h2 h3 h4 => exact .inr (.inr (.inr ⟨h3, h4, h1, h2⟩))

/-- **C23** (parallel) How the stalling counter changes in one step of a parallel run: when an iteration
is completed by a collected evaluation or by a value copied from an old record, it is reset if the best
current value has improved on the reference value, and incremented otherwise; at a restart it is reset;
otherwise it does not change.  In particular searches that are discarded, and evaluations collected
while shutting down, are iterations that do not count. -/
theorem C23_parallel_stalling {start pause : ℕ} (h : PReach P env pe o (.running start pause) s)
    (hs : PStep P env pe start pause s s') :
    (s'.alg.numStalled = s.alg.numStalled ∧ s'.alg.fminStall = s.alg.fminStall ∧
      (s'.alg.itercount = s.alg.itercount ∨ (s'.alg.itercount = s.alg.itercount + 1 ∧
        ((∃ l, s.pc = .closing l) ∨
         (s.pc = .searches ∧ s'.subs = s.subs ∧ s'.hist = s.hist ∧
          s'.searches.length + 1 = s.searches.length))))) ∨
    (s'.alg.itercount = s.alg.itercount + 1 ∧
      ((Improves P s'.alg.fmin s.alg.fminStall ∧ s'.alg.numStalled = 0 ∧
          s'.alg.fminStall = s'.alg.fmin) ∨
       (¬ Improves P s'.alg.fmin s.alg.fminStall ∧ s'.alg.numStalled = s.alg.numStalled + 1 ∧
          s'.alg.fminStall = s.alg.fminStall)) ∧
      ((∃ b, s.pc = .evals b) ∨ s.pc = .searches)) ∨
    (s'.alg.itercount = s.alg.itercount ∧ s'.alg.numStalled = 0 ∧ s'.alg.fminStall = s'.alg.fmin ∧
      s.evals = [] ∧ s.searches = [] ∧ ParRestartReason P env s) := by
  cases PStep.move h hs with
  | keep h1 h2 h3 h4 h5 h6 => exact .inl ⟨h3, h4, h6⟩
  | iteration h1 h2 h3 h4 h5 h6 => exact .inr (.inl ⟨h5, h3, h6⟩)
  | next h1 h2 h3 h4 h5 => exact .inl ⟨h2, h3, .inl h5⟩
  | restart h1 h2 h3 h4 h5 h6 h7 h8 h9 => exact .inr (.inr ⟨h9, h6, h7, h2, h3, h1⟩)
  | wait h1 h2 h3 h4 h5 h6 h7 h8 => exact .inl ⟨h5, h6, .inl h8⟩

/-- **C23** (parallel) A parallel run restarts only when nothing is outstanding, and only if the restart
rule applies or the interpolation model cannot be built. -/
theorem C23_parallel_restart_reasons {start pause : ℕ} (h : PReach P env pe o (.running start pause) s)
    (hs : PStep P env pe start pause s s') (hch : s'.alg.nAtRestart ≠ s.alg.nAtRestart) :
    s.evals = [] ∧ s.searches = [] ∧ ParRestartReason P env s := by
  cases PStep.move h hs with
  | keep h1 h2 h3 h4 h5 h6 => exact absurd h5 hch
  | iteration h1 h2 h3 h4 h5 h6 => exact absurd h4 hch
  | next h1 h2 h3 h4 h5 => exact absurd h4 hch
  | restart h1 h2 h3 => exact ⟨h2, h3, h1⟩
  | wait h1 h2 h3 h4 h5 h6 h7 => exact absurd h7 hch

/-- Converse: as soon as the restart rule applies at the point where new work is handed out, the current
step is not switched off, a worker is free and nothing is outstanding, the only steps are restarts (or
the exceptions they raise). -/
theorem C23_parallel_restart_happens {start pause : ℕ}
    (hp : s.pc = .submit) (hf : s.evals.length + s.searches.length < pe.numCpus)
    (hen : (s.alg.step = 0 → P.doInf = true) ∧ (s.alg.step = P.numGlobal + 1 → P.doLocal = true))
    (hd : RestartDue P s.alg) (he : s.evals = []) (hse : s.searches = [])
    (hs : PStep P env pe start pause s s') :
    ∃ r, RestartPar P env pe s r ∧ s' = s.orRaise .model r := by
  have hfull : parFull pe s = false := by
    unfold parFull; rw [decide_eq_false_iff_not]; omega
  have hskip : parSkip P s = false := by
    unfold parSkip; rw [decide_eq_false_iff_not]
    rintro (⟨h1, h2⟩ | ⟨h1, h2⟩)
    · rw [hen.1 h1] at h2; cases h2
    · rw [hen.2 h1] at h2; cases h2
  have hbusy : parBusy s = false := by
    unfold parBusy; rw [decide_eq_false_iff_not, he, hse]; simp
  cases hs with
  | restart _ _ _ _ _ hr => exact ⟨_, hr, rfl⟩
  | noRestart _ _ _ hn => rw [shouldRestart_iff.mpr hd] at hn; cases hn
  | _ => simp_all

end Rbfopt
