import Verif.Lemmas.ParallelWait
import Verif.Props.Samples
import Verif.Spec.Source
import Verif.Props.Records

/-!
# The parallel engine (C60–C63, C70–C74, and C01–C05, C16 with several CPUs)

`PReach P env pe o c s`: the engine can be in state `s`, in some history of calls, for an arbitrary
schedule of the workers (see `Spec/Parallel.lean`).  `s.subs` lists all evaluations submitted to
workers, `s.hist` says what became of those that are not outstanding, `s.alg.all` are the records.
-/

namespace Rbfopt

variable {O : Type} {P : Params} {env : Env O} {pe : PEnv O} {o : O} {c : PCtl} {s s' : PState O}

/-! ## C60: temporary nodes, outstanding evaluations and records -/

/-- **C60** While the main loop runs, the temporary nodes are the points of the outstanding
evaluations, in the same order. -/
theorem C60_temporary_nodes_match (h : PReach P env pe o c s) (ha : s.pc.Active) :
    s.tPos = s.evals.map (fun x => x.pt) ∧ s.tNoisy = s.evals.map (fun x => x.noisy) ∧
    s.tVal.length = s.evals.length :=
  ⟨h.book.tpos ha, h.book.tnoisy ha, h.book.tval ha⟩

/-- **C60** Every evaluation ever submitted is either outstanding or has exactly one fate, whatever
the schedule: nothing is collected twice, nothing is forgotten. -/
theorem C60_every_submission_accounted (h : PReach P env pe o c s) :
    (s.evals.map (fun x => x.id) ++ s.hist.map (fun x => x.1)).Perm (List.range s.subs.length) :=
  h.book.ids

/-- **C60** No evaluation is recorded twice, or recorded although it was skipped. -/
theorem C60_one_fate (h : PReach P env pe o c s) : (s.hist.map (fun x => x.1)).Nodup := by
  have := (h.book.ids.nodup_iff).mpr List.nodup_range
  exact (List.nodup_append.mp this).2.1

/-- **C60** When a worker has finished an evaluation and the result is collected, then either the
records do not change (the result is skipped, or a noisy evaluation is repeated accurately), or
exactly one record is added, at the point that was evaluated and with the value returned for it; it
keeps `min_dist` from the nodes. -/
theorem C60_collects_own_value {start pause b : ℕ}
    (hp : s.pc = .evals b) (hs : PStep P env pe start pause s s') (hne : s'.evals ≠ s.evals) :
    ∃ (k : ℕ) (job : EvalJob), s.evals[k]? = some job ∧
      ((s'.alg.all = s.alg.all ∧ s'.alg.cur = s.alg.cur ∧
          (s'.hist = s.hist ++ [(job.id, .skipped)] ∨
            (job.noisy = true ∧ s'.hist = s.hist ++ [(job.id, .repeated)]))) ∨
       (s'.hist = s.hist ++ [(job.id, .recorded)] ∧
        (∀ q ∈ s.alg.cur.pos, P.minDist < env.dist job.pt q) ∧
        s'.alg.cur = s.alg.cur.append
          { pos := [job.pt], val := [(jobResult pe job).1]
            noisy := [job.noisy], err := [(jobResult pe job).2] } ∧
        s'.alg.all = s.alg.all.append
          { pos := [env.toOrig job.pt], val := [(jobResult pe job).1]
            noisy := [job.noisy], err := [(jobResult pe job).2] })) := by
  cases hs.kind with
  | ctrl hc => exact absurd hc.evals hne
  | collect _ hc e =>
    subst e
    obtain ⟨job, h1, h2⟩ := collect_records hc
    refine ⟨_, job, h1, ?_⟩
    rcases h2 with h2 | ⟨h2, h3, _, h4, h5⟩
    · exact Or.inl h2
    · exact Or.inr ⟨h2, h3, h4, h5⟩
  | harvest hp' => rw [hp] at hp'; cases hp'
  | @restart s0 s1 pc hc he hs' hr _ e =>
    exfalso
    cases hs with
    | restart hp' => rw [hp] at hp'; cases hp'
    | restoration hp' => rw [hp] at hp'; cases hp'
    | _ => simp_all [PState.orRaise]
  | submit hp' => rw [hp] at hp'; cases hp'
  | close hp' => rw [hp] at hp'; cases hp'

/-- **C60** Every record of the parallel engine was returned by a worker for that point, by
`evaluate()` for a point given by the user, supplied by the user, or copied from a record closer than
`eps_zero` (`PSource`). -/
theorem C60_records_genuine (h : PReach P env pe o c s) :
    s.alg.all.All (fun p v b _ => PSource P env pe s p v b) := h.recs.src

/-! ## C01–C05 with several CPUs -/

/-- **C01** (parallel) When the parallel engine has returned, `optimize()` reports the smallest record. -/
theorem C01_parallel_returns_best_record {r : OptResult O} (h : optimizeReturn s.alg = .ret r) :
    (∀ v ∈ s.alg.all.val, r.value ≤ v) ∧
    (∃ i : ℕ, s.alg.all.pos[i]? = some r.point ∧ s.alg.all.val[i]? = some r.value) ∧
    r.itercount = s.alg.itercount ∧ r.evalcount = s.alg.evalcount ∧
    r.noisyEvalcount = s.alg.noisyEvalcount := by
  unfold optimizeReturn at h
  split at h
  · cases h
  · rename_i v i hm
    obtain ⟨a1, a2, _⟩ := argminVal_some hm
    split at h
    · rename_i p e b hp he hb
      cases h
      exact ⟨a2, ⟨i, hp, a1⟩, rfl, rfl, rfl⟩
    · cases h

/-- **C01** (parallel) Whenever there is at least one record, `optimize()` does return. -/
theorem C01_parallel_returns (h : PReach P env pe o c s) (hne : s.alg.all.pos ≠ []) :
    ∃ r, optimizeReturn s.alg = .ret r := by
  obtain ⟨a1, a2, a3⟩ := h.book.wf.allA
  have hv : s.alg.all.val ≠ [] := by
    intro h0; rw [h0] at a1; exact hne (List.length_eq_zero_iff.mp (by simpa using a1.symm))
  unfold optimizeReturn
  cases hm : argminVal s.alg.all.val with
  | none => exact absurd (argminVal_none.mp hm) hv
  | some vi =>
    obtain ⟨v, i⟩ := vi
    obtain ⟨h1, _⟩ := argminVal_some hm
    have hlt := (List.getElem?_eq_some_iff.mp h1).1
    dsimp only
    rw [List.getElem?_eq_getElem (show i < s.alg.all.pos.length by omega),
      List.getElem?_eq_getElem (show i < s.alg.all.err.length by omega),
      List.getElem?_eq_getElem (show i < s.alg.all.noisy.length by omega)]
    exact ⟨_, rfl⟩

/-- **C02** (parallel, single-phase) The tracked best value, minimum and maximum are right at any time,
for any schedule. -/
theorem C02_parallel_tracked_best (hP : P.twoPhase = false) (h : PReach P env pe o c s)
    (hne : s.alg.all.pos ≠ []) :
    ∃ f b M : ℚ, s.alg.fmin = (f : EVal) ∧ s.alg.fbest = (b : EVal) ∧ s.alg.fmax = (M : EVal) ∧
      IsLeastAt s.alg.cur.val s.alg.fminIdx f ∧ IsLeastAt s.alg.all.val s.alg.fbestIdx b ∧
      IsGreatestOf s.alg.cur.val M := by
  rcases h.best hP with h1 | h1
  · rw [h1.1] at hne; simp at hne
  · exact h1

/-- **C03** (parallel) Alignment of the tables; unless the last restart was interrupted by an exception
(see C90), the current nodes are the records made since the last restart. -/
theorem C03_parallel_tables_aligned (h : PReach P env pe o c s) :
    s.alg.cur.Aligned ∧ s.alg.all.Aligned ∧ s.alg.nAtRestart ≤ s.alg.all.pos.length ∧
    (s.cut = false →
      s.alg.cur.val = s.alg.all.val.drop s.alg.nAtRestart ∧
      s.alg.cur.noisy = s.alg.all.noisy.drop s.alg.nAtRestart ∧
      s.alg.cur.err = s.alg.all.err.drop s.alg.nAtRestart ∧
      List.Forall₂ (fun q p => q = env.toInternal p ∨ p = env.toOrig q) s.alg.cur.pos
        (s.alg.all.pos.drop s.alg.nAtRestart)) := by
  have w := h.book.wf
  exact ⟨w.curA, w.allA, w.le, fun hc => ⟨(w.tail hc).val, (w.tail hc).noisy, w.errEq hc,
    (w.tail hc).pos⟩⟩

/-- **C04** (parallel) The counters are the numbers of evaluations submitted to workers, plus the
evaluations of user points made by the main process. -/
theorem C04_parallel_counters (h : PReach P env pe o c s) :
    s.alg.evalcount = s.subs.countP (fun x => x.2.1 == false) + countAcc s.alg.log ∧
    s.alg.noisyEvalcount = s.subs.countP (fun x => x.2.1 == true) ∧ countNoisy s.alg.log = 0 :=
  ⟨h.recs.acc, h.recs.noisy, h.recs.logN⟩

/-- **C05** (parallel, no domain scaling) Every record flagged accurate has a value returned by
`evaluate()` or supplied by the user, for that point up to reuse. -/
theorem C05_parallel_accurate_genuine (hid : ∀ x, env.toOrig x = x) (h : PReach P env pe o c s) :
    s.alg.all.All (fun p v b _ => b = false → ∃ q, NearChain env P.epsZero p q ∧
      ((∃ id tag, s.subs[id]? = some (q, false, tag) ∧ pe.acc id = v ∧
          (id, Fate.recorded) ∈ s.hist) ∨
        Evaluated env s.alg.log q v ∨ UserGave P q v)) := by
  refine h.recs.src.mono ?_
  intro p v b _ hs
  induction hs with
  | @job p v b nb id tag e h1 h2 h3 =>
    intro hb
    have hnb : nb = false := by
      cases nb with
      | false => rfl
      | true => rw [h3 rfl] at hb; cases hb
    subst hnb
    exact ⟨p, .refl _, Or.inl ⟨id, tag, h2.1, by simpa using h2.2.1, h1⟩⟩
  | @late x v b id e h1 h2 =>
    intro hb
    subst hb
    rw [hid]
    exact ⟨x, .refl _, Or.inl ⟨id, .init, h2.1, by simpa using h2.2.1, h1⟩⟩
  | @userEval p v h1 h2 => intro _; exact ⟨p, .refl _, Or.inr (Or.inl h2)⟩
  | userVal i h1 h2 => intro _; exact ⟨_, .refl _, Or.inr (Or.inr ⟨i, h1, h2⟩)⟩
  | near _ h2 ih =>
    intro hb
    obtain ⟨q, hq, h3⟩ := ih hb
    exact ⟨q, .jump h2 hq, h3⟩

/-- **C05** (parallel, single-phase) No noisy evaluation is ever requested and no record is noisy. -/
theorem C05_parallel_single_phase (hP : P.twoPhase = false) (h : PReach P env pe o c s) :
    (∀ x ∈ s.subs, x.2.1 = false) ∧ s.alg.mode = .accurate ∧
    s.alg.all.All (fun _ _ b e => b = false ∧ e = (0, 0)) :=
  ⟨(h.single hP).subs, (h.single hP).mode, (h.single hP).all⟩

/-! ## C61: outstanding work -/

/-- **C61** The number of evaluations and searches outstanding at any time is at most the number of
CPUs, or one more than the number of initial evaluations left running by the last restart. -/
theorem C61_outstanding (h : PReach P env pe o c s) :
    s.evals.length + s.searches.length ≤ max pe.numCpus (s.left + 1) := h.book.bound

/-- **C61** If at most `N` initial points are generated, at most `max(num_cpus, N + 1)` tasks are
outstanding. -/
theorem C61_outstanding_bound {N : ℕ}
    (hN : ∀ a pts o, env.initNodes a = .ok (pts, o) → pts.length ≤ N) (h : PReach P env pe o c s) :
    s.evals.length + s.searches.length ≤ max pe.numCpus (N + 1) := by
  have h1 := h.book.bound
  have h2 := h.left_le hN
  omega

/-- **C61** A search is only submitted if a worker is free, except directly after a restart. -/
theorem C61_submits_to_free_worker {start pause : ℕ} (hs : PStep P env pe start pause s s')
    (hm : s'.pc = .model) :
    s.evals.length + s.searches.length < pe.numCpus ∨ (s.evals = [] ∧ s.searches = []) := by
  have hor : ∀ {e : Except PyErr (PState O)} {pc : PC}, pc ≠ .model → (s.orRaise pc e).pc = .model →
      False := by
    intro e pc hpc h
    unfold PState.orRaise at h
    split at h
    · cases h
    · exact hpc h
  cases hs with
  | noRestart hp hf _ _ => exact Or.inl (by simpa [parFull] using hf)
  | restart hp hf _ _ hb hr => exact Or.inr (by simpa [parBusy] using hb)
  | evalsDone hp => dsimp only at hm; split at hm <;> cases hm
  | collect j hp hj => exact (hor (by simp) hm).elim
  | harvest j res hp hj hi _ => exact (hor (by simp) hm).elim
  | restoration _ _ _ _ _ _ => exact (hor (by simp) hm).elim
  | submit _ _ _ _ _ _ => exact (hor (by simp) hm).elim
  | close _ => exact (hor (by simp) hm).elim
  | _ => cases hm

/-! ## C62: waiting for the initial evaluations -/

/-- **C62** If all submitted evaluations eventually finish and enough were submitted, the waiting loop
ends; the collected results and the remaining evaluations are the submitted ones, and enough were
collected. -/
theorem C62_wait_ends {ready : ℕ → ℕ → Bool} {need T : ℕ} {js : List EvalJob}
    (hmono : ∀ t id, ready t id = true → ready (t + 1) id = true)
    (hall : ∀ x ∈ js, ∀ t, T ≤ t → ready t x.id = true) (hn : need ≤ js.length) :
    ∃ fuel got rest, waitLoop ready need fuel 0 false js [] = some (got, rest) ∧
      need ≤ got.length ∧ (got ++ rest).Perm js := by
  obtain ⟨fuel, ⟨g, r⟩, h⟩ := waitLoop_ends_aux (need := need) hmono _ 0 false js [] le_rfl
    (by simpa using hn) hall
  obtain ⟨h1, sel, d, h2, h3⟩ := waitLoop_count h
  refine ⟨fuel, g, r, h, h1, ?_⟩
  rw [List.nil_append] at h2
  subst h2
  exact (popJobs_spec h3).2

/-- **C62** (violation) If fewer evaluations were submitted than are required, the loop never ends,
even if all of them finish. -/
theorem C62_wait_never_ends {ready : ℕ → ℕ → Bool} {need : ℕ} {js : List EvalJob}
    (hn : js.length < need) (fuel : ℕ) : waitLoop ready need fuel 0 false js [] = none := by
  cases h : waitLoop ready need fuel 0 false js [] with
  | none => rfl
  | some gr =>
    obtain ⟨g, r⟩ := gr
    obtain ⟨h1, sel, d, h2, h3⟩ := waitLoop_count h
    have := popJobs_len h3
    rw [List.nil_append] at h2
    subst h2
    omega

/-- **C62** The abstract restart used by the engine covers what the waiting loop does, for any timing
of the workers. -/
theorem C62_wait_is_restart {ready : ℕ → ℕ → Bool} {fuel : ℕ} {s1 : PState O} {prev : Table}
    {got rest : List EvalJob} (hb : restartBegin P env s = .ok (s1, prev))
    (h : waitLoop ready (initNeed P pe s.alg prev.pos.length) fuel 0 false s1.evals [] =
      some (got, rest)) :
    RestartPar P env pe s (restartEnd P env pe s1 prev got rest) := by
  by_cases h0 : initNeed P pe s.alg prev.pos.length = 0
  · rw [h0] at h
    cases fuel with
    | zero => simp [waitLoop] at h
    | succ fuel =>
      simp only [waitLoop, List.length_nil, le_refl, if_true, Option.some.injEq,
        Prod.mk.injEq] at h
      obtain ⟨rfl, rfl⟩ := h
      exact .ends (sel := []) hb rfl (by omega) (fun _ => rfl)
  · obtain ⟨h1, sel, d, h2, h3⟩ := waitLoop_count h
    rw [List.nil_append] at h2
    subst h2
    have := (popJobs_spec h3).1
    exact .ends hb h3 (by omega) (fun h => absurd h h0)

/-- **C62** If the initialization always generates at least as many points as are required, every
restart gets past the waiting loop once the workers have finished. -/
theorem C62_restart_completes (hmin : ∀ a pts o, env.initNodes a = .ok (pts, o) →
      pe.minInit ≤ pts.length) (s : PState O) : ∃ r, RestartPar P env pe s r := by
  cases hb : restartBegin P env s with
  | error e => exact ⟨_, .failed hb⟩
  | ok sp =>
    obtain ⟨s1, prev⟩ := sp
    have hn : initNeed P pe s.alg prev.pos.length ≤ s1.evals.length := by
      obtain ⟨pts, noisy, o, rfl, -, -, -, ⟨h1, h2, h3, h4⟩ | ⟨nodePos, a, h1, -, h2, -⟩⟩ :=
        restartBegin_cases hb
      · unfold initNeed
        rw [if_neg (by simp [h1, h2])]
        omega
      · have := hmin _ _ _ h1
        simp only [initJobs_length]
        unfold initNeed
        split <;> omega
    obtain ⟨fuel, got, rest, h, _⟩ := C62_wait_ends (ready := fun _ _ => true) (T := 0)
      (js := s1.evals) (by simp) (by simp) hn
    exact ⟨_, C62_wait_is_restart hb h⟩

/-- **C62** (violation) If the initialization generates fewer points than are required, the first call
of `optimize()` hangs: no schedule gets past the initialization. -/
theorem C62_first_call_hangs (hd : P.doInit = true) (hf : P.refFreq ≠ 0)
    (hmin : ∀ a, ∃ pts o, env.initNodes a = .ok (pts, o) ∧ pts.length < pe.minInit)
    {s0 : PState O} (h0 : s0.alg.itercount = 0) (hr : s0.alg.all.pos = []) :
    ¬ ∃ s, PStart P env pe s0 s := by
  have key : ∀ r, ¬ RestartPar P env pe s0.fresh r := by
    intro r h
    cases h with
    | failed hb =>
      unfold restartBegin at hb
      dsimp only at hb
      rw [if_pos (Or.inr hd)] at hb
      obtain ⟨pts, o, h1, -⟩ := hmin { s0.fresh.alg with
        numNoisyRestarts := s0.fresh.alg.numNoisyRestarts +
          (if s0.fresh.alg.mode = .noisy then 1 else 0)
        nAtRestart := s0.fresh.alg.all.pos.length }
      rw [h1] at hb
      dsimp only at hb
      unfold removeExistingIf at hb
      simp only [PState.fresh, hr, List.length_nil, gt_iff_lt, lt_irrefl, if_false, ne_eq,
        not_true_eq_false] at hb
      cases hb
    | @ends s1 prev sel done rest hb hp hn hz =>
      obtain ⟨pts, noisy, o, rfl, -, -, -, ⟨h1, h2, h3, h4⟩ | ⟨nodePos, a, h1, -, h2, -⟩⟩ :=
        restartBegin_cases hb
      · rw [hd] at h2; cases h2
      · obtain ⟨pts', o', h3, h4⟩ := hmin a
        rw [h1] at h3
        cases h3
        obtain ⟨p1, p2⟩ := popJobs_spec hp
        have h5 := p2.length_eq
        simp only [List.length_append, initJobs_length] at h5
        unfold initNeed at hn
        rw [if_pos (Or.inr hd)] at hn
        omega
  rintro ⟨s, h⟩
  cases h with
  | zeroFrequency h => exact hf h
  | firstFails _ _ h => exact key _ h
  | first _ _ h => exact key _ h
  | resumed _ h => exact h h0

/-- **C62** With a Latin hypercube strategy in dimension at least two a parallel run never hangs in a
restart. -/
theorem C62_latin_hypercube_completes {C : InitCfg} {I : Internal} (hs : C.strategy.isLhd = true)
    (hf : 0 ≤ C.sampleFraction) (hi : 0 ≤ C.increaseParallel) (hdim : sampleDim C I ≠ 1)
    (hpe : pe.minInit = minNumInitSamplesParallel C I.lower.length)
    (henv : ∀ a pts o, env.initNodes a = .ok (pts, o) →
      ∃ draws, initializeNodes C I draws = some (.ok pts)) (s : PState O) :
    ∃ r, RestartPar P env pe s r := by
  refine C62_restart_completes (fun a pts o h => ?_) s
  obtain ⟨draws, hd⟩ := henv a pts o h
  rw [hpe]
  exact (C38_enough_submitted hs hf hi hdim hd).2.2

/-- **C62** (violation) In dimension one, with a Latin hypercube strategy and `init_sample_fraction` 4,
`optimize()` with several CPUs never gets past the initialization. -/
theorem C62_violated_one_dimension {C : InitCfg} (hs : C.strategy.isLhd = true)
    (hf : C.sampleFraction = 4) {l u : ℚ} {I : Internal} (hl : I.lower = [l]) (hu : I.upper = [u])
    (he : I.expansion = []) (hpe : pe.minInit = minNumInitSamplesParallel C I.lower.length)
    (henv : ∀ a, ∃ pts o draws, env.initNodes a = .ok (pts, o) ∧
      initializeNodes C I draws = some (.ok pts)) (hd : P.doInit = true) (hrf : P.refFreq ≠ 0) :
    ¬ ∃ s, PStart P env pe { alg := Alg.init P o } s := by
  refine C62_first_call_hangs hd hrf (fun a => ?_) rfl rfl
  obtain ⟨pts, o', draws, h1, h2⟩ := henv a
  refine ⟨pts, o', h1, ?_⟩
  unfold initializeNodes runTrials at h2
  split at h2
  · cases h2
  · rename_i r it hl'
    split at h2
    · cases h2
    · rcases initLoop_spec _ _ _ hl' with ⟨nds, e1, -, -, e4, -⟩ | ⟨e1, -⟩
      · subst e1
        cases h2
        obtain ⟨h3, h4⟩ := C38_violated_one_dimension hs hf hl hu he e4
        rw [hpe, h3]
        omega
      · subst e1; cases h2

end Rbfopt
