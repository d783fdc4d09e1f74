import Verif.Props.ParallelPhase

/-!
# Why a parallel call stops (C12)
-/

namespace Rbfopt

variable {O : Type} {P : Params} {env : Env O} {pe : PEnv O} {o : O} {c : PCtl} {s s' : PState O}

/-- The gap tested by the loop is the gap of the best record, except that after a restart inside the
call it may be larger until the next node is added. -/
def PGap (P : Params) (s : PState O) : Prop :=
  s.pc.Active → s.gap = computeGap P s.alg.fbest ∨
    (s.alg.cur.pos.length = s.alg.nInit ∧ computeGap P s.alg.fbest ≤ s.gap)

theorem currentGap_congr {a b : Alg O} (h1 : a.all = b.all) (h2 : a.fbest = b.fbest)
    (h3 : a.fbestIdx = b.fbestIdx) : currentGap P a = currentGap P b := by
  unfold currentGap; rw [h1, h2, h3]

theorem endPass_gap {a b : Alg O} (h : endPass P a = .ok b) : currentGap P b = currentGap P a := by
  obtain ⟨-, -, -, -, -, -, -, -, f1, -, -, -, f2, f3, -⟩ := endPass_ctl h
  exact currentGap_congr f1 f2 f3

theorem updateLog_gap {a : Alg O} {v : ℚ} {g : EVal} :
    currentGap P (updateLog a v g) = currentGap P a := by
  obtain ⟨g', st, e⟩ := updateLog_frame a v g
  rw [e]; rfl

theorem data_gap {a b : Alg O} (h : a.data = b.data) : currentGap P a = currentGap P b :=
  currentGap_congr (congrArg Data.all h) (congrArg Data.fbest h) (congrArg Data.fbestIdx h)

/-- Single-phase: the gap computed for a reachable state is that of the best record. -/
theorem PReach.currentGap (hP : P.twoPhase = false) (h : PReach P env pe o c s) {g : EVal}
    (hg : Rbfopt.currentGap P s.alg = .ok g) : g = computeGap P s.alg.fbest :=
  currentGap_single ⟨(h.single hP).mode, h.recs.logN, (h.single hP).all⟩ h.book.wf.allA hg

theorem PStep.gap (hz : 0 < P.epsZero) (hP : P.twoPhase = false) {start pause : ℕ}
    (hr : PReach P env pe o (.running start pause) s) (hI : PGap P s)
    (hs : PStep P env pe start pause s s') : PGap P s' := by
  have hr' := hr.step hs
  have keep : ∀ t : PState O, t.gap = s.gap → t.alg.data = s.alg.data → s.pc.Active → PGap P t := by
    intro t h1 h2 h3 _
    have e1 : t.alg.fbest = s.alg.fbest := congrArg Data.fbest h2
    have e2 : t.alg.cur = s.alg.cur := congrArg Data.cur h2
    have e3 : t.alg.nInit = s.alg.nInit := congrArg Data.nInit h2
    rw [h1, e1, e2, e3]
    exact hI h3
  have exact' : ∀ t : PState O, PReach P env pe o (.running start pause) t →
      currentGap P t.alg = .ok t.gap → PGap P t := by
    intro t ht hg _
    exact Or.inl (ht.currentGap hP hg)
  have rest' : ∀ (t s1 : PState O) (pc : PC) {pts noisy o done rest prev u calls a m M i},
      RestartParts P env pe t s1 pts noisy o done rest prev u calls a m M i →
      t.gap = s.gap → s.pc.Active → t.alg.fbest = s.alg.fbest → PGap P { s1 with pc := pc } := by
    intro t s1 pc pts noisy o done rest prev u calls a m M i hq e1 e2 e3 _
    have hb : a.fbest ≤ s.alg.fbest := by
      rw [hq.install.fbest, ← e3]
      exact min_le_left _ _
    refine Or.inr ⟨?_, ?_⟩
    · rw [hq.eq]
      dsimp only [PState.fates]
      rw [hq.install.cur, hq.install.nInit]
      simp
    · rw [hq.eq]
      dsimp only [PState.fates]
      rw [e1]
      refine (computeGap_mono hz hb).trans ?_
      rcases hI e2 with h | h
      · exact h.symm.le
      · exact h.2
  cases hs with
  | enter hp _ => exact keep _ rfl rfl (by rw [hp]; trivial)
  | leave hp _ => intro h; exact absurd h (by simp [PC.Active])
  | evalsDone hp => exact keep _ rfl rfl (by rw [hp]; trivial)
  | searchesDone hp => exact keep _ rfl rfl (by rw [hp]; trivial)
  | full hp => exact keep _ rfl rfl (by rw [hp]; trivial)
  | skip hp => exact keep _ rfl rfl (by rw [hp]; trivial)
  | waitRestart hp => exact keep _ rfl rfl (by rw [hp]; trivial)
  | noRestart hp => exact keep _ rfl rfl (by rw [hp]; trivial)
  | underdetermined hp => exact keep _ rfl rfl (by rw [hp]; trivial)
  | waitRestoration hp => exact keep _ rfl rfl (by rw [hp]; trivial)
  | prepFails => intro h; exact absurd h (by simp [PC.Active])
  | noList => intro h; exact absurd h (by simp [PC.Active])
  | finish => intro h; exact absurd h (by simp [PC.Active])
  | close hp =>
    intro h
    unfold PState.orRaise at h
    split at h <;> exact absurd h (by simp [PC.Active])
  | collect j hp hj =>
    unfold PState.orRaise at hr' ⊢
    split at hr'
    · intro h; exact absurd h (by simp [PC.Active])
    · rename_i s1 hc
      obtain ⟨job, d, hjob, -, hcase⟩ := collectJob_cases hc
      rcases hcase with ⟨_, tb, rfl⟩ | ⟨_, hn, _, a, ha, rfl⟩ |
        ⟨_, gap, a, a', rc, rb, hg, hda, _, _, _, ha, _, _, rfl⟩
      · exact keep _ rfl rfl (by rw [hp]; trivial)
      · have hj' := (hr.single hP).job hr.book (List.mem_of_getElem? hjob)
        rw [hj'] at hn; cases hn
      · refine exact' _ hr' ?_
        dsimp only [PState.fate]
        rw [endPass_gap ha, data_gap hda, updateLog_gap, hg]
  | harvest j res hp hj hi hprop =>
    unfold PState.orRaise at hr' ⊢
    split at hr'
    · intro h; exact absurd h (by simp [PC.Active])
    · rename_i s1 hc
      obtain ⟨job, rd, a, tb, -, ha, hcase⟩ := harvestJob_cases hc
      have ha' : a = s.alg := by
        rcases ha with h | ⟨_, _, h, _⟩
        · exact h
        · exact absurd (hi (Or.inl hP)) h
      subst ha'
      rcases hcase with rfl | ⟨p0, hp0, hu, ⟨b, v, -, hre⟩ | ⟨-, rfl⟩⟩
      · obtain ⟨nc, rc, rb, _, _, e⟩ := harvestDiscard_eq (P := P) (takeSearch s j rd s.alg tb) job.tag
        rw [e]
        intro _
        exact hI (by rw [hp]; trivial)
      · obtain ⟨a1, e, gap, a2, hadd, hz, _, hg, he, rfl⟩ := harvestReuse_cases hre
        refine exact' _ hr' ?_
        dsimp only
        rw [endPass_gap he, updateLog_gap, hg]
      · intro _
        exact hI (by rw [hp]; trivial)
  | restart hp _ _ _ _ hre =>
    unfold PState.orRaise
    split
    · intro h; exact absurd h (by simp [PC.Active])
    · obtain ⟨pts, noisy, o, done, rest, prev, u, calls, a, m, M, i, hq⟩ := restartPar_ok hre
      exact rest' _ _ _ hq rfl (by rw [hp]; trivial) rfl
  | restoration hp _ _ _ _ hre =>
    unfold PState.orRaise
    split
    · intro h; exact absurd h (by simp [PC.Active])
    · obtain ⟨pts, noisy, o, done, rest, prev, u, calls, a, m, M, i, hq⟩ := restartPar_ok hre
      exact rest' _ _ _ hq rfl (by rw [hp]; trivial) rfl
  | submit r1 r2 hp _ _ _ =>
    unfold PState.orRaise
    split
    · intro h; exact absurd h (by simp [PC.Active])
    · rename_i s1 hc
      obtain ⟨a, rd, rb, hd, -, rfl | ⟨noisy, tag, rfl, -⟩⟩ := submitNext_cases hc
      · exact keep _ rfl hd (by rw [hp]; trivial)
      · exact keep _ rfl hd (by rw [hp]; trivial)

theorem PStart.gap (hP : P.twoPhase = false) {s0 : PState O} {start pause : ℕ}
    (hr : PReach P env pe o (.running start pause) s) (h : PStart P env pe s0 s) (hp : s.pc = .top) :
    s.gap = computeGap P s.alg.fbest := by
  have hw : ∀ {q : PState O}, PReach P env pe o (.running start pause) (withGap P q) →
      (withGap P q).pc = .top → (withGap P q).gap = computeGap P (withGap P q).alg.fbest := by
    intro q
    unfold withGap
    split
    · intro _ h; cases h
    · rename_i gap hg
      intro hq _
      exact hq.currentGap hP hg
  cases h with
  | zeroFrequency => cases hp
  | firstFails => cases hp
  | first => exact hw hr hp
  | resumed => exact hw hr hp

theorem PReach.gap (hz : 0 < P.epsZero) (hP : P.twoPhase = false) {start pause : ℕ}
    (h : PReach P env pe o (.running start pause) s) : PGap P s := by
  generalize hc : PCtl.running start pause = c at h
  induction h with
  | init => cases hc
  | call pause' h1 h2 ih =>
    cases hc
    intro ha
    refine Or.inl (PStart.gap hP (PReach.call pause h1 h2) h2 ?_)
    cases h2 with
    | zeroFrequency => exact absurd ha (by simp [PC.Active])
    | firstFails => exact absurd ha (by simp [PC.Active])
    | first =>
      unfold withGap at ha ⊢
      split at ha
      · exact absurd ha (by simp [PC.Active])
      · rfl
    | resumed =>
      unfold withGap at ha ⊢
      split at ha
      · exact absurd ha (by simp [PC.Active])
      · rfl
  | step h1 hs ih => cases hc; exact PStep.gap hz hP h1 (ih rfl) hs
  | ret => cases hc
  | load => cases hc
  | raises => cases hc
  | firstRaises => cases hc

/-- The value is within `eps_opt` of the target: relative, or absolute if `|target_objval| < eps_zero`. -/
@[reducible] def TargetReached (P : Params) (v : ℚ) : Prop :=
  v ≤ P.target + P.epsOpt * (if P.epsZero ≤ |P.target| then |P.target| else 1)

theorem computeGap_le_iff (hz : 0 < P.epsZero) {v : ℚ} :
    computeGap P ((v : ℚ) : EVal) ≤ ((P.epsOpt : ℚ) : EVal) ↔ TargetReached P v := by
  simp only [computeGap, WithTop.map_coe]
  rw [WithTop.coe_le_coe]
  unfold computeGapQ TargetReached
  dsimp only
  have hden : 0 < (if P.epsZero ≤ |P.target| then |P.target| else 1) := by
    split
    · rename_i h; exact lt_of_lt_of_le hz h
    · norm_num
  generalize hD : (if P.epsZero ≤ |P.target| then |P.target| else 1) = D at hden
  rw [div_le_iff₀ hden]
  constructor <;> intro h <;> linarith

/-- Some record reaches the target iff the best one does. -/
theorem reached_iff (hz : 0 < P.epsZero) (hP : P.twoPhase = false) (h : PReach P env pe o c s) :
    (∃ v ∈ s.alg.all.val, TargetReached P v) ↔
      computeGap P s.alg.fbest ≤ ((P.epsOpt : ℚ) : EVal) := by
  rcases h.best hP with ⟨h1, -, h3, -⟩ | ⟨f, b, M, -, h2, -, -, h5, -⟩
  · rw [h1, h3]
    constructor
    · rintro ⟨v, hv, -⟩; simp at hv
    · intro hle
      simp [computeGap] at hle
  · rw [h2, computeGap_le_iff hz]
    constructor
    · rintro ⟨v, hv, ht⟩
      have := h5.2 v hv
      unfold TargetReached at *
      linarith
    · intro ht
      exact ⟨b, List.mem_of_getElem? h5.1, ht⟩

theorem PStep.iter_mono {start pause : ℕ} (hs : PStep P env pe start pause s s') :
    s.alg.itercount ≤ s'.alg.itercount := by
  cases hs.kind with
  | ctrl h => exact h.itercount.symm.le
  | collect hp hc e =>
    subst e
    obtain ⟨job, d, -, -, hcase⟩ := collectJob_cases hc
    rcases hcase with ⟨_, tb, rfl⟩ | ⟨_, hn, _, a, ha, rfl⟩ |
      ⟨_, gap, a, a', rc, rb, hg, hda, hit, _, _, ha, _, _, rfl⟩
    · exact le_refl _
    · have := (endPass_ctl ha).1
      dsimp only at this ⊢
      omega
    · have := (endPass_ctl ha).1
      dsimp only [PState.fate] at this ⊢
      omega
  | @harvest j res s1 hp hi hprop hc e =>
    subst e
    obtain ⟨job, rd, a, tb, -, ha, hcase⟩ := harvestJob_cases hc
    have ha' : a.itercount = s.alg.itercount := by
      rcases ha with rfl | ⟨_, _, _, _, _, h⟩
      · rfl
      · obtain ⟨_, _, rfl⟩ := removeNode_spec h
        rfl
    rcases hcase with rfl | ⟨p0, hp0, hu, ⟨b, v, -, hre⟩ | ⟨-, rfl⟩⟩
    · obtain ⟨nc, rc, rb, _, _, e⟩ := harvestDiscard_eq (P := P) (takeSearch s j rd a tb) job.tag
      rw [e]
      dsimp only [takeSearch]
      omega
    · obtain ⟨a1, e, gap, a2, hadd, hz, _, hg, he, rfl⟩ := harvestReuse_cases hre
      have h1 := (endPass_ctl he).1
      obtain ⟨g', st, e'⟩ := updateLog_frame a1 v gap
      rw [e'] at h1
      have h2 : a1.itercount = a.itercount := hadd.ctl.1
      dsimp only at h1 ⊢
      omega
    · exact ha'.symm.le
  | restart hc _ _ hre hpc e =>
    obtain ⟨pts, noisy, o, done, rest, prev, u, calls, a, m, M, i, hq⟩ := restartPar_ok hre
    subst e
    rw [hq.eq]
    dsimp only [PState.fates]
    rw [hq.install.itercount]
    exact hc.itercount.symm.le
  | submit _ _ hi _ _ _ e =>
    subst e
    exact hi.symm.le
  | close hp hc e =>
    subst e
    obtain ⟨hn, hne, a, gap, g, st, ha, _, rfl⟩ := closeJob_cases hc
    dsimp only [PState.fate]
    omega

/-- The declared reasons to stop, in the state in which a call ends (`t` in the clock limit: the state
in which the condition of the loop was evaluated last). -/
def StopReason (P : Params) (env : Env O) (pe : PEnv O) (o : O) (s0 : PState O) (pause : ℕ)
    (s : PState O) : Prop :=
  s0.alg.itercount + pause ≤ s.alg.itercount ∨ P.maxIter ≤ s.alg.itercount ∨
  P.maxEval ≤ s.alg.evalcount ∨ P.searchSpace ≤ ((s.alg.evalcount : ℚ) : EVal) ∨
  (P.maxCycles : ℤ) ≤ s.alg.cyc ∨
  (∃ t : PState O, CallReach P env pe o s0 pause t ∧ t.pc = .top ∧
    P.maxClock ≤ ((env.clock t.alg : ℚ) : EVal)) ∨
  ∃ v ∈ s.alg.all.val, TargetReached P v

/-- **C12** (parallel, single-phase) When a parallel call returns, one of the declared reasons holds: the
pause length, the limits on iterations, evaluations and cycles, the size of the search space, the clock
limit, or a record within `eps_opt` of the target. -/
theorem C12_parallel_stop_reason (hP : P.twoPhase = false) (hz : 0 < P.epsZero) {s0 : PState O}
    {pause : ℕ} (h : CallReach P env pe o s0 pause s) (hd : s.pc = .done) :
    StopReason P env pe o s0 pause s := by
  suffices key : s0.alg.itercount ≤ s.alg.itercount ∧ (((∃ todo, s.pc = .closing todo) ∨ s.pc = .done) →
      StopReason P env pe o s0 pause s) from key.2 (Or.inr hd)
  clear hd
  induction h with
  | start h1 h2 =>
    have hw : ∀ {q : PState O}, (withGap P q).alg = q.alg ∧ ∀ todo, (withGap P q).pc ≠ .closing todo ∧
        (withGap P q).pc ≠ .done := by
      intro q; unfold withGap; split <;> simp
    cases h2 with
    | zeroFrequency => exact ⟨le_refl _, by simp⟩
    | firstFails => exact ⟨le_refl _, by simp⟩
    | first _ _ hre =>
      obtain ⟨pts, noisy, o, done, rest, prev, u, calls, a, m, M, i, hq⟩ := restartPar_ok hre
      refine ⟨?_, ?_⟩
      · rw [hw.1, hq.eq]
        dsimp only [PState.fates]
        rw [hq.install.itercount]
        exact le_refl _
      · rintro (⟨todo, h⟩ | h)
        · exact absurd h (hw.2 todo).1
        · exact absurd h (hw.2 []).2
    | resumed =>
      refine ⟨?_, ?_⟩
      · rw [hw.1]; exact le_refl _
      · rintro (⟨todo, h⟩ | h)
        · exact absurd h (hw.2 todo).1
        · exact absurd h (hw.2 []).2
  | @step s s' h1 hs ih =>
    refine ⟨ih.1.trans hs.iter_mono, ?_⟩
    have hr := h1.reach
    cases hs with
    | leave hp hc =>
      intro _
      unfold parCond at hc
      have hc' : ¬ loopCond P env s0.alg.itercount pause s.alg { gap := s.gap, err := none } = true := by
        rw [hc]; simp
      rw [loopCond_iff] at hc'
      by_contra hne
      unfold StopReason at hne
      simp only [not_or, not_le] at hne
      obtain ⟨n1, n2, n3, n4, n5, n6, n7⟩ := hne
      apply hc'
      dsimp only at *
      have := ih.1
      refine ⟨by omega, n2, n3, n4, n5, ?_, ?_⟩
      · by_contra hcl
        exact n6 ⟨s, h1, hp, not_lt.mp hcl⟩
      · by_contra hgap
        refine n7 ((reached_iff hz hP hr).mpr ?_)
        refine le_trans ?_ (not_lt.mp hgap)
        rcases hr.gap hz hP (by rw [hp]; trivial) with h | h
        · exact h.symm.le
        · exact h.2
    | close hp =>
      unfold PState.orRaise
      split
      · intro h; simp at h
      · rename_i s1 hc
        intro _
        have := ih.2 (Or.inl ⟨_, hp⟩)
        obtain ⟨hn, hne, a, gap, g, st, ha, _, rfl⟩ := closeJob_cases hc
        have e1 := ha.rest.2.1
        have e2 := ha.ctl.2.2.1
        unfold StopReason at this ⊢
        dsimp only [PState.fate]
        rw [e1, e2, ha.all]
        rcases this with h | h | h | h | h | h | ⟨v, hv, h⟩
        · left; omega
        · right; left; omega
        · exact .inr (.inr (.inl h))
        · exact .inr (.inr (.inr (.inl h)))
        · exact .inr (.inr (.inr (.inr (.inl h))))
        · exact .inr (.inr (.inr (.inr (.inr (.inl h)))))
        · exact .inr (.inr (.inr (.inr (.inr (.inr ⟨v, by simp [Table.append, hv], h⟩)))))
    | finish hp =>
      intro _
      exact ih.2 (Or.inl ⟨_, hp⟩)
    | enter => intro h; simp at h
    | evalsDone => intro h; dsimp only at h; split at h <;> simp at h
    | collect => intro h; unfold PState.orRaise at h; split at h <;> simp at h
    | harvest => intro h; unfold PState.orRaise at h; split at h <;> simp at h
    | restart => intro h; unfold PState.orRaise at h; split at h <;> simp at h
    | restoration => intro h; unfold PState.orRaise at h; split at h <;> simp at h
    | submit => intro h; unfold PState.orRaise at h; split at h <;> simp at h
    | _ => intro h; simp at h

/-- **C12** (parallel, single-phase) The target is noticed: if a record reaches the target when the
condition of the main loop is tested, the call ends there — unless the last event of the call was a
restart (no node has been added to the initial sample since), because the gap is not recomputed after a
restart inside a call. -/
theorem C12_parallel_target_ends_call (hP : P.twoPhase = false) (hz : 0 < P.epsZero) {start pause : ℕ}
    (h : PReach P env pe o (.running start pause) s) (hp : s.pc = .top) {v : ℚ}
    (hv : v ∈ s.alg.all.val) (ht : TargetReached P v) (hn : s.alg.cur.pos.length ≠ s.alg.nInit)
    (hs : PStep P env pe start pause s s') : s'.pc = .closing s.evals := by
  have hg : s.gap = computeGap P s.alg.fbest :=
    (h.gap hz hP (by rw [hp]; trivial)).resolve_right (fun h => hn h.1)
  have := (reached_iff hz hP h).mp ⟨v, hv, ht⟩
  rw [← hg] at this
  cases hs with
  | leave => rfl
  | enter _ hc =>
    obtain ⟨-, -, -, -, -, -, h7⟩ := loopCond_iff.mp hc
    exact absurd this (not_le.mpr h7)
  | _ => simp_all

/-- **C12** (parallel, single-phase) A call that starts with a record that reaches the target ends
without doing anything; so does the first call if its initial sample reaches it. -/
theorem C12_parallel_target_at_start (hP : P.twoPhase = false) (hz : 0 < P.epsZero) {s0 : PState O}
    {pause : ℕ} (h0 : PReach P env pe o .idle s0) (h : PStart P env pe s0 s) (hp : s.pc = .top) {v : ℚ}
    (hv : v ∈ s.alg.all.val) (ht : TargetReached P v)
    (hs : PStep P env pe s0.alg.itercount pause s s') : s'.pc = .closing s.evals ∧ s'.alg = s.alg := by
  have hr : PReach P env pe o (.running s0.alg.itercount pause) s := .call pause h0 h
  have hg := PStart.gap hP hr h hp
  have := (reached_iff hz hP hr).mp ⟨v, hv, ht⟩
  rw [← hg] at this
  cases hs with
  | leave => exact ⟨rfl, rfl⟩
  | enter _ hc =>
    obtain ⟨-, -, -, -, -, -, h7⟩ := loopCond_iff.mp hc
    exact absurd this (not_le.mpr h7)
  | _ => simp_all

end Rbfopt
