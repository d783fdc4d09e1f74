import Verif.Lemmas.ControlInv

/-! # Further invariants: coverage of calls, domain, evaluation budgets, gap -/

namespace Rbfopt

variable {O : Type}

/-! ## Lengths -/

theorem length_eq_counts (l : List Call) : l.length = countAcc l + countNoisy l := by
  induction l with
  | nil => rfl
  | cons c l ih =>
    rw [← List.singleton_append, countAcc_append, countNoisy_append, List.length_append, ih]
    cases c <;> simp <;> omega

/-! ## Every call is recorded (single-phase runs) -/

def CoverOK (env : Env O) (s : Alg O) : Prop := Covered env s.log s.all

theorem CoverOK.micro {P : Params} {env : Env O} {s t : Alg O} (hP : P.twoPhase = false)
    (hd : ∀ p, env.dist p p ≤ P.minDist) (w : WF env s) (hs : SingleOK s) (h : CoverOK env s)
    (hm : Micro P env s t) : CoverOK env t := by
  cases hm with
  | ctrl e =>
    have e1 : t.all = s.all := congrArg Data.all e
    have e3 : t.log = s.log := congrArg Data.log e
    unfold CoverOK; rw [e1, e3]; exact h
  | log obj gap =>
    obtain ⟨g, st, e⟩ := updateLog_frame s obj gap
    rw [e]; exact h
  | restart hr =>
    obtain ⟨pts, c1, c2, tb, ho⟩ := restart_calls hr
    unfold CoverOK
    rw [ho.log, ho.all]
    exact Covered.append w.allA h ho.cover
  | removeLocal i h1 _ hr => simp [hP] at h1
  | erase is h1 _ => simp [hP] at h1
  | removeRest i p t' hl hr => rw [restorationLoop_none hd] at hl; cases hl
  | add loc p0 d r hd' hlt hev hadd =>
    obtain ⟨calls, ho⟩ := evaluateNext_spec hev w.allA
    obtain ⟨e, ha, _, _⟩ := addResult_spec hadd
    obtain ⟨r1, r2, r3, -⟩ := ha.rest
    obtain ⟨q0, q0', -, -, -, -, -, -, -, q1, q2, q3, -⟩ := ho.data_eqs
    unfold CoverOK
    rw [ha.all, r1, q1, q0']
    refine Covered.append w.allA h ?_
    have hlen : calls.length ≤ 1 := by
      rw [length_eq_counts, (ho.acc hs.1).1]
      have := ho.le_acc
      omega
    intro c hc
    refine ⟨0, _, rfl, ?_⟩
    rcases ho.src with ⟨_, hin⟩ | ⟨hn, _⟩ | ⟨rfl, _⟩
    · match calls, hlen with
      | [c'], _ =>
        simp only [List.mem_singleton] at hin hc
        rw [hc, ← hin]
        exact ⟨rfl, rfl⟩
      | [], _ => cases hc
    · rw [(ho.acc hs.1).2] at hn; cases hn
    · cases hc
  | phase h1 _ => simp [hP] at h1

theorem Reach.cover {P : Params} {env : Env O} {o : O} {c : Ctl} {s : Alg O}
    (h : Reach P env o c s) (hP : P.twoPhase = false) (hd : ∀ p, env.dist p p ≤ P.minDist) :
    CoverOK env s :=
  (h.inv' (I := fun s => SingleOK s ∧ CoverOK env s)
    ⟨by simp [SingleOK, Alg.init, hP, Table.All], by intro c hc; simp [Alg.init] at hc⟩
    (fun _ _ w hs hm => ⟨hs.1.micro hP w hm, hs.2.micro hP hd w hs.1 hm⟩)).2

/-! ## Where evaluated points come from -/

/-- All recorded points satisfy `Q`, all calls are made at decoded `Q`-points. -/
def DomOK (Q : Pt → Prop) (env : Env O) (s : Alg O) : Prop :=
  (∀ p ∈ s.all.pos, Q p) ∧ ∀ c ∈ s.log, ∃ p, Q p ∧ c.point = env.decode p

theorem DomOK.micro {Q : Pt → Prop} {P : Params} {env : Env O} {s t : Alg O}
    (hinit : ∀ s pts o, env.initNodes s = .ok (pts, o) → ∀ p ∈ pts, Q p)
    (huser : ∀ p ∈ P.initPos, Q p)
    (hiter : ∀ p, Q (env.toOrig (clipPt p P.lLower P.lUpper)))
    (w : WF env s) (h : DomOK Q env s)
    (hm : Micro P env s t) : DomOK Q env t := by
  obtain ⟨h1, h2⟩ := h
  cases hm with
  | ctrl e =>
    have e1 : t.all = s.all := congrArg Data.all e
    have e3 : t.log = s.log := congrArg Data.log e
    unfold DomOK; rw [e1, e3]; exact ⟨h1, h2⟩
  | log obj gap =>
    obtain ⟨g, st, e⟩ := updateLog_frame s obj gap
    rw [e]; exact ⟨h1, h2⟩
  | restart hr =>
    obtain ⟨pts, c1, c2, tb, ho⟩ := restart_calls hr
    have hpts : ∀ p ∈ pts, Q p := by
      rcases ho.sample with h | ⟨o, s0, _, _, h⟩
      · rw [h]; simp
      · exact hinit _ _ _ h
    unfold DomOK
    rw [ho.log, ho.all]
    constructor
    · intro p hp
      rcases List.mem_append.mp hp with hp | hp
      · exact h1 p hp
      · rcases ho.posOrigin p hp with hp | hp | hp
        · exact hpts p hp
        · exact h1 p hp
        · exact huser p hp
    · intro c hc
      rcases List.mem_append.mp hc with hc | hc
      · exact h2 c hc
      · rcases List.mem_append.mp hc with hc | hc
        · obtain ⟨p, hp, e⟩ := ho.samplePts c hc
          exact ⟨p, hpts p hp, e⟩
        · obtain ⟨p, hp, e⟩ := ho.userPts c hc
          exact ⟨p, huser p hp, e⟩
  | removeLocal i _ _ hr =>
    obtain ⟨_, _, rfl⟩ := removeNode_spec hr
    exact ⟨fun p hp => h1 p (List.mem_of_mem_eraseIdx hp), h2⟩
  | erase is _ _ => exact ⟨h1, h2⟩
  | removeRest i p t' hl hr =>
    obtain ⟨_, _, rfl⟩ := removeNode_spec hr
    exact ⟨fun p hp => h1 p (List.mem_of_mem_eraseIdx hp), h2⟩
  | add loc p0 d r hd' hlt hev hadd =>
    obtain ⟨calls, ho⟩ := evaluateNext_spec hev w.allA
    obtain ⟨e, ha, _, _⟩ := addResult_spec hadd
    obtain ⟨r1, r2, r3, -⟩ := ha.rest
    obtain ⟨q0, q0', -, -, -, -, -, -, -, q1, q2, q3, -⟩ := ho.data_eqs
    have hcp : ∀ c ∈ r.s.log, c ∈ s.log ∨
        c.point = env.decode (env.toOrig (clipPt p0 P.lLower P.lUpper)) := by
      intro c hc
      clear ho hadd ha r1 r2 r3 q0 q0' q1 q2 q3
      unfold evaluateNext at hev
      split at hev
      · split at hev
        · cases hev; exact Or.inl hc
        · cases hev
          simp only [objfun, List.mem_append, List.mem_singleton] at hc
          exact hc.imp id (fun h => by rw [h]; rfl)
      · have hn : ∀ c ∈ (noisyFirst P env s loc (env.toOrig (clipPt p0 P.lLower P.lUpper))).s.log,
            c ∈ s.log ∨ c.point = env.decode (env.toOrig (clipPt p0 P.lLower P.lUpper)) := by
          intro c hc
          unfold noisyFirst at hc
          split at hc
          · exact Or.inl hc
          · simp only [objfunNoisy, List.mem_append, List.mem_singleton] at hc
            exact hc.imp id (fun h => by rw [h]; rfl)
        dsimp only at hev
        split at hev
        · split at hev
          · cases hev
          · split at hev
            · cases hev
              obtain ⟨g, st, hl⟩ := updateLog_frame
                (noisyFirst P env s loc (env.toOrig (clipPt p0 P.lLower P.lUpper))).s
                (noisyFirst P env s loc (env.toOrig (clipPt p0 P.lLower P.lUpper))).val loc.gap
              simp only [objfun, hl, List.mem_append, List.mem_singleton] at hc
              rcases hc with hc | hc
              · exact hn c hc
              · right; rw [hc]; rfl
            · cases hev; exact hn c hc
        · cases hev; exact hn c hc
    unfold DomOK
    constructor
    · rw [ha.all, q0']
      intro p hp
      rcases List.mem_append.mp hp with hp | hp
      · exact h1 p hp
      · rw [List.mem_singleton.mp hp]; exact hiter p0
    · rw [r1]
      intro c hc
      rcases hcp c hc with hc | hc
      · exact h2 c hc
      · exact ⟨_, hiter p0, hc⟩
  | phase _ _ => exact ⟨h1, h2⟩

theorem Reach.dom {Q : Pt → Prop} {P : Params} {env : Env O} {o : O} {c : Ctl} {s : Alg O}
    (hinit : ∀ s pts o, env.initNodes s = .ok (pts, o) → ∀ p ∈ pts, Q p)
    (huser : ∀ p ∈ P.initPos, Q p)
    (hiter : ∀ p, Q (env.toOrig (clipPt p P.lLower P.lUpper)))
    (h : Reach P env o c s) : DomOK Q env s :=
  h.inv' ⟨by simp [Alg.init], by simp [Alg.init]⟩
    (fun _ _ w hs hm => hs.micro hinit huser hiter w hm)

/-! ## Mode -/

def ModeOK (P : Params) (s : Alg O) : Prop := s.mode = .noisy → P.twoPhase = true

theorem ModeOK.micro {P : Params} {env : Env O} {s t : Alg O} (w : WF env s)
    (h : ModeOK P s) (hm : Micro P env s t) : ModeOK P t := by
  unfold ModeOK at *
  cases hm with
  | ctrl e => have e2 : t.mode = s.mode := congrArg Data.mode e; rw [e2]; exact h
  | log obj gap =>
    obtain ⟨g, st, e⟩ := updateLog_frame s obj gap
    rw [e]; exact h
  | restart hr =>
    obtain ⟨tb, calls, m, M, i, ho⟩ := restart_spec hr
    rw [ho.mode]; exact h
  | removeLocal i _ _ hr =>
    obtain ⟨_, _, rfl⟩ := removeNode_spec hr
    exact h
  | erase is _ _ => exact h
  | removeRest i p t' _ hr =>
    obtain ⟨_, _, rfl⟩ := removeNode_spec hr
    exact h
  | add loc p0 d r hd hlt hev hadd =>
    have c := (SameCtl.evaluateNext hev w.allA).trans (SameCtl.addResult hadd)
    rw [c.mode]; exact h
  | phase h1 _ => intro _; exact h1

theorem Reach.modeOK {P : Params} {env : Env O} {o : O} {c : Ctl} {s : Alg O}
    (h : Reach P env o c s) : ModeOK P s :=
  h.inv' (by
    unfold ModeOK Alg.init
    dsimp only
    split
    · intro _; assumption
    · intro h; cases h) (fun _ _ w hs hm => hs.micro w hm)

/-- Accurate mode is never left and no noisy call is made in it. -/
theorem accurate_micro {P : Params} {env : Env O} {k : ℕ} {s t : Alg O} (w : WF env s)
    (h : s.mode = .accurate ∧ countNoisy s.log = k) (hm : Micro P env s t) :
    t.mode = .accurate ∧ countNoisy t.log = k := by
  obtain ⟨h1, h2⟩ := h
  cases hm with
  | ctrl e =>
    have e2 : t.mode = s.mode := congrArg Data.mode e
    have e3 : t.log = s.log := congrArg Data.log e
    rw [e2, e3]; exact ⟨h1, h2⟩
  | log obj gap =>
    obtain ⟨g, st, e⟩ := updateLog_frame s obj gap
    rw [e]; exact ⟨h1, h2⟩
  | restart hr =>
    obtain ⟨tb, calls, m, M, i, ho⟩ := restart_spec hr
    rw [ho.mode, ho.log]
    exact ⟨h1, by simp [h2, ho.accMode h1]⟩
  | removeLocal i _ _ hr =>
    obtain ⟨_, _, rfl⟩ := removeNode_spec hr
    exact ⟨h1, h2⟩
  | erase is _ _ => exact ⟨h1, h2⟩
  | removeRest i p t' _ hr =>
    obtain ⟨_, _, rfl⟩ := removeNode_spec hr
    exact ⟨h1, h2⟩
  | add loc p0 d r hd hlt hev hadd =>
    have c := (SameCtl.evaluateNext hev w.allA).trans (SameCtl.addResult hadd)
    obtain ⟨calls, ho⟩ := evaluateNext_spec hev w.allA
    obtain ⟨e, ha, _, _⟩ := addResult_spec hadd
    obtain ⟨-, -, -, -, -, -, -, -, -, q1, -⟩ := ho.data_eqs
    rw [c.mode, ha.rest.1, q1]
    exact ⟨h1, by simp [h2, (ho.acc h1).1]⟩
  | phase _ h => rw [h1] at h; cases h

/-! ## Evaluation budget -/

/-- Number of user points evaluated by a restart, at most. -/
def userEvals (P : Params) : ℕ := if P.initVal.length < P.initPos.length then P.initPos.length else 0

theorem restart_evals {P : Params} {env : Env O} {s s' : Alg O} {S : ℕ}
    (hS : ∀ s pts o, env.initNodes s = .ok (pts, o) → pts.length ≤ S)
    (h : restart P env s = .ok s') : s'.evalcount ≤ s.evalcount + (S + userEvals P) := by
  obtain ⟨tb, calls, m, M, i, ho⟩ := restart_spec h
  obtain ⟨pts, c1, c2, tb', hc⟩ := restart_calls h
  have e : calls = c1 ++ c2 := List.append_cancel_left (ho.log.symm.trans hc.log)
  rw [ho.ev, e, countAcc_append]
  have h1 : countAcc c1 ≤ S := by
    have := length_eq_counts c1
    have := hc.sampleLen
    rcases hc.sample with h | ⟨o, s0, _, _, h⟩
    · rw [h] at this; simp at this; subst this; simp
    · have := hS _ _ _ h; omega
  have h2 : countAcc c2 ≤ userEvals P := by
    unfold userEvals
    split
    · have := length_eq_counts c2
      have := hc.userLen
      omega
    · rw [hc.userGiven (by omega)]; simp
  omega

theorem processPoint_evals {P : Params} {env : Env O} {s s' : Alg O} {loc loc' : Loc}
    {next : Option Pt} {ref : Option RefProposal} (w : WF env s)
    (h : processPoint P env s loc next ref = .ok (s', loc')) :
    s'.evalcount ≤ s.evalcount + 1 ∧ s'.noisyEvalcount ≤ s.noisyEvalcount + 1 ∧
    (s.mode = .accurate → s'.noisyEvalcount = s.noisyEvalcount) := by
  rcases processPoint_cases h with ⟨rfl, rfl⟩ |
    ⟨p0, d, r, s1, gap, s2, rfl, hd, hlt, hev, hadd, hgap, haft, rfl, rfl⟩
  · have := discardPoint_data P s
    have e1 := congrArg Data.evalcount this
    have e2 := congrArg Data.noisyEvalcount this
    simp only [Alg.data] at e1 e2
    omega
  · have := afterAdd_data haft
    have e1 : s2.evalcount = (updateLog s1 r.val gap).evalcount := congrArg Data.evalcount this
    have e2 : s2.noisyEvalcount = (updateLog s1 r.val gap).noisyEvalcount :=
      congrArg Data.noisyEvalcount this
    obtain ⟨g, st, e⟩ := updateLog_frame s1 r.val gap
    rw [e] at e1 e2
    obtain ⟨calls, ho⟩ := evaluateNext_spec hev w.allA
    obtain ⟨_, ha, _, _⟩ := addResult_spec hadd
    obtain ⟨-, r2, r3, -⟩ := ha.rest
    obtain ⟨-, -, -, -, -, -, -, -, -, -, q2, q3, -⟩ := ho.data_eqs
    have l1 := ho.le_acc
    have l2 := ho.le_noisy
    dsimp only at *
    refine ⟨by omega, by omega, fun hm => ?_⟩
    have := (ho.acc hm).1
    omega

theorem restorationSearch_none_data {P : Params} {env : Env O} {s s' : Alg O}
    (h : restorationSearch P env s = .ok (none, s')) : s'.data = s.data := by
  rw [restorationSearch_none h]; rfl

theorem WF.dispatch {P : Params} {env : Env O} {s : Alg O} {d : Dispatch O} (w : WF env s)
    (h : dispatch P env s = .ok d) : WF env d.st :=
  Micros.inv (I := WF env) (fun _ _ hs hm => hs.micro hm) w (dispatch_micros h)

/-- Removing nodes in the dispatch does not change counters. -/
theorem dispatch_go_counts {P : Params} {env : Env O} {s s' : Alg O} {next : Option Pt}
    {ref : Option RefProposal} (h : dispatch P env s = .ok (.go s' next ref)) :
    s'.evalcount = s.evalcount ∧ s'.noisyEvalcount = s.noisyEvalcount ∧ s'.log = s.log ∧
    s'.fbest = s.fbest ∧ s'.nAtRestart = s.nAtRestart ∧ s'.fmin = s.fmin := by
  unfold dispatch at h
  split at h
  · split at h
    · cases h
    · cases h; exact ⟨rfl, rfl, rfl, rfl, rfl, rfl⟩
  · split at h
    · split at h
      · cases h
      · split at h
        · cases h
        · split at h <;> cases h
      · rename_i hr
        cases h
        unfold restorationSearch at hr
        split at hr
        · cases hr
        · split at hr
          · cases hr
          · rename_i hrm
            cases hr
            obtain ⟨_, _, rfl⟩ := removeNode_spec hrm
            exact ⟨rfl, rfl, rfl, rfl, rfl, rfl⟩
    · split at h
      · split at h
        · cases h
        · rename_i lp o _
          obtain ⟨e, he⟩ := eraseErr_frame P { s with opq := o } lp.erased
          rw [he] at h
          unfold localDispatch at h
          split at h
          · split at h
            · split at h
              · cases h
              · split at h
                · split at h
                  · split at h
                    · cases h
                    · rename_i hr
                      cases h
                      obtain ⟨_, _, rfl⟩ := removeNode_spec hr
                      exact ⟨rfl, rfl, rfl, rfl, rfl, rfl⟩
                  · cases h; exact ⟨rfl, rfl, rfl, rfl, rfl, rfl⟩
                · cases h
            · cases h; exact ⟨rfl, rfl, rfl, rfl, rfl, rfl⟩
          · cases h; exact ⟨rfl, rfl, rfl, rfl, rfl, rfl⟩
      · split at h
        · split at h
          · cases h
          · cases h; exact ⟨rfl, rfl, rfl, rfl, rfl, rfl⟩
        · split at h
          · cases h
          · cases h; exact ⟨rfl, rfl, rfl, rfl, rfl, rfl⟩

/-- Accurate evaluations in one pass. -/
theorem pass_evals {P : Params} {env : Env O} {s s' : Alg O} {loc loc' : Loc} {S : ℕ}
    (hS : ∀ s pts o, env.initNodes s = .ok (pts, o) → pts.length ≤ S) (w : WF env s)
    (h : pass P env s loc = .ok (s', loc')) :
    s'.evalcount ≤ s.evalcount + max (2 * (S + userEvals P)) (S + userEvals P + 1) := by
  have w0 : WF env { s with passes := s.passes + 1 } := w.of_data rfl
  have hR : ∀ s1, restartIfNeeded P env { s with passes := s.passes + 1 } = .ok s1 →
      s1.evalcount ≤ s.evalcount + (S + userEvals P) ∧ WF env s1 := by
    intro s1 h1
    rcases restartIfNeeded_cases h1 with ⟨_, hr⟩ | ⟨_, rfl⟩
    · exact ⟨restart_evals (s := { s with passes := s.passes + 1 }) hS hr, w0.restart hr⟩
    · exact ⟨Nat.le_add_right _ _, w0⟩
  cases pass_inv h with
  | skip hs hs' hl => rw [hs']; exact Nat.le_add_right _ _
  | linFail s1 o hs h1 h2 h3 hl =>
    obtain ⟨r1, r2⟩ := hR s1 h1
    have := congrArg Data.evalcount (buildModel_data h3)
    simp only [Alg.data] at this
    omega
  | cont s1 s2 o hs h1 h2 h3 h4 hl =>
    obtain ⟨r1, r2⟩ := hR s1 h1
    have b := congrArg Data.evalcount (buildModel_data h3)
    simp only [Alg.data] at b
    obtain ⟨hst, s3, h5, h6⟩ := dispatch_skip h4
    have := restorationSearch_none h5
    subst this
    rcases h6 with ⟨_, _, rfl⟩ | h6
    · have : s2.evalcount ≤ s.evalcount + (S + userEvals P) := by omega
      simp only [advanceStep]
      omega
    · have := restart_evals hS h6
      dsimp only at this
      omega
  | iter s1 s2 s3 s4 o next ref hp =>
    obtain ⟨r1, w1⟩ := hR s1 hp.restart
    have b := congrArg Data.evalcount (buildModel_data hp.build)
    simp only [Alg.data] at b
    have w2 : WF env s2 := WF.of_data (s := { s1 with opq := o }) (w1.of_data rfl)
        (buildModel_data hp.build)
    have d1 := (dispatch_go_counts hp.disp).1
    have p1 := (processPoint_evals (w2.dispatch hp.disp) hp.proc).1
    obtain ⟨-, -, -, -, -, -, -, -, -, -, e1, -⟩ := endPass_ctl hp.fin
    simp only [Dispatch.st] at p1
    omega

theorem loop_evals {P : Params} {env : Env O} {S : ℕ}
    (hS : ∀ s pts o, env.initNodes s = .ok (pts, o) → pts.length ≤ S)
    {start pause fuel : ℕ} {s s' : Alg O} {loc loc' : Loc} (w : WF env s)
    (h : loop P env start pause fuel s loc = .done s' loc') :
    s'.evalcount ≤ max s.evalcount
      (P.maxEval - 1 + max (2 * (S + userEvals P)) (S + userEvals P + 1)) := by
  induction fuel generalizing s loc with
  | zero =>
    simp only [loop] at h
    split at h
    · cases h
    · cases h; omega
  | succ fuel ih =>
    simp only [loop] at h
    split at h
    · rename_i hc
      split at h
      · cases h
      · rename_i s1 loc1 hp
        have w1 : WF env s1 :=
          Micros.inv (I := WF env) (fun _ _ hs hm => hs.micro hm) w (pass_micros hp)
        have h1 := ih w1 h
        have h2 := pass_evals hS w hp
        have h3 := (loopCond_iff.mp hc).2.2.1
        omega
    · cases h; omega

/-! ## Noisy budget -/

/-- Bound on the number of noisy evaluations, for initial samples of at most `S` points. -/
def noisyBound (P : Params) (S : ℕ) : ℕ := max P.maxNoisyEval 1 + (S - (P.n + 1))

def NoisyOK (P : Params) (S : ℕ) (s : Alg O) : Prop :=
  s.noisyEvalcount ≤ noisyBound P S ∧ (s.mode = .noisy → s.noisyEvalcount < noisyBound P S)

theorem NoisyOK.restart {P : Params} {env : Env O} {s s' : Alg O} {S : ℕ}
    (hS : ∀ s pts o, env.initNodes s = .ok (pts, o) → pts.length ≤ S) (h : NoisyOK P S s)
    (hr : restart P env s = .ok s') : NoisyOK P S s' := by
  obtain ⟨tb, calls, m, M, i, ho⟩ := restart_spec hr
  obtain ⟨pts, c1, c2, tb', hc⟩ := restart_calls hr
  have e : calls = c1 ++ c2 := List.append_cancel_left (ho.log.symm.trans hc.log)
  have hn : s'.noisyEvalcount = s.noisyEvalcount + countNoisy c1 := by
    rw [ho.nev, e, countNoisy_append, hc.userAcc]; omega
  have hS' : countNoisy c1 ≤ S := by
    have := length_eq_counts c1
    have := hc.sampleLen
    rcases hc.sample with h | ⟨o, s0, _, _, h⟩
    · rw [h] at this; simp at this; subst this; simp
    · have := hS _ _ _ h; omega
  obtain ⟨h1, h2⟩ := h
  unfold NoisyOK
  rw [ho.mode, hn]
  by_cases h0 : countNoisy c1 = 0
  · rw [h0]; exact ⟨h1, h2⟩
  · obtain ⟨g1, g2, g3⟩ := hc.sampleNoisy h0
    unfold noisyBound at *
    omega

theorem NoisyOK.congr {P : Params} {S : ℕ} {s t : Alg O} (h : NoisyOK P S s)
    (h1 : t.noisyEvalcount = s.noisyEvalcount) (h2 : t.mode = s.mode) : NoisyOK P S t := by
  unfold NoisyOK; rw [h1, h2]; exact h

theorem endPass_mode {P : Params} {s s' : Alg O} (h : endPass P s = .ok s') (hm : ModeOK P s)
    (hn : s'.mode = .noisy) : s.mode = .noisy ∧ s.noisyEvalcount < P.maxNoisyEval ∧
      s.itercount + 1 < P.maxNoisyIter ∧ s.numNoisyRestarts ≤ P.maxNoisyRestarts := by
  unfold endPass at h
  dsimp only at h
  split at h
  · cases h
  · simp only [Except.ok.injEq] at h
    have hst : ∀ a : Alg O, (stallingUpdate P a).mode = a.mode ∧
        (stallingUpdate P a).noisyEvalcount = a.noisyEvalcount ∧
        (stallingUpdate P a).itercount = a.itercount ∧
        (stallingUpdate P a).numNoisyRestarts = a.numNoisyRestarts := by
      intro a
      unfold stallingUpdate
      split
      · simp
      · split <;> simp
    obtain ⟨a1, a2, a3, a4⟩ := hst { s with itercount := s.itercount + 1 }
    unfold phaseUpdate at h
    split at h
    · rw [← h] at hn; cases hn
    · rename_i hc
      rw [← h, a1] at hn
      dsimp only at hn a1 a2 a3 a4
      have htp := hm hn
      rw [a1, a2, a3, a4] at hc
      simp only [htp, hn, true_and, not_or, not_lt, not_le] at hc
      exact ⟨hn, hc.2.2, hc.2.1, hc.1⟩

theorem NoisyOK.pass {P : Params} {env : Env O} {s s' : Alg O} {loc loc' : Loc} {S : ℕ}
    (hS : ∀ s pts o, env.initNodes s = .ok (pts, o) → pts.length ≤ S) (w : WF env s)
    (hm : ModeOK P s) (h : NoisyOK P S s) (hp : pass P env s loc = .ok (s', loc')) :
    NoisyOK P S s' := by
  have w0 : WF env { s with passes := s.passes + 1 } := w.of_data rfl
  have hR : ∀ s1, restartIfNeeded P env { s with passes := s.passes + 1 } = .ok s1 →
      NoisyOK P S s1 ∧ WF env s1 ∧ s1.mode = s.mode := by
    intro s1 h1
    rcases restartIfNeeded_cases h1 with ⟨_, hr⟩ | ⟨_, rfl⟩
    · obtain ⟨tb, calls, m, M, i, ho⟩ := restart_spec hr
      exact ⟨NoisyOK.restart (s := { s with passes := s.passes + 1 }) hS (h.congr rfl rfl) hr,
        w0.restart hr, ho.mode⟩
    · exact ⟨h.congr rfl rfl, w0, rfl⟩
  cases pass_inv hp with
  | skip hs hs' hl => rw [hs']; exact h.congr rfl rfl
  | linFail s1 o hs h1 h2 h3 hl =>
    obtain ⟨r1, r2, r3⟩ := hR s1 h1
    have e1 := congrArg Data.noisyEvalcount (buildModel_data h3)
    have e2 := congrArg Data.mode (buildModel_data h3)
    exact r1.congr e1 e2
  | cont s1 s2 o hs h1 h2 h3 h4 hl =>
    obtain ⟨r1, r2, r3⟩ := hR s1 h1
    have e1 := congrArg Data.noisyEvalcount (buildModel_data h3)
    have e2 := congrArg Data.mode (buildModel_data h3)
    have r4 : NoisyOK P S s2 := r1.congr e1 e2
    obtain ⟨hst, s3, h5, h6⟩ := dispatch_skip h4
    have := restorationSearch_none h5
    subst this
    rcases h6 with ⟨_, _, rfl⟩ | h6
    · exact r4.congr rfl rfl
    · exact NoisyOK.restart (s := { s2 with opq := env.restOpq s2 }) hS (r4.congr rfl rfl) h6
  | iter s1 s2 s3 s4 o next ref hp =>
    obtain ⟨r1, w1, r3⟩ := hR s1 hp.restart
    have e1 := congrArg Data.noisyEvalcount (buildModel_data hp.build)
    have e2 := congrArg Data.mode (buildModel_data hp.build)
    have r4 : NoisyOK P S s2 := r1.congr e1 e2
    have w2 : WF env s2 := WF.of_data (s := { s1 with opq := o }) (w1.of_data rfl)
        (buildModel_data hp.build)
    have d1 := (dispatch_go_counts hp.disp).2.1
    have d2 := (dispatch_go hp.disp).1.mode
    have r5 : NoisyOK P S s3 := r4.congr d1 d2
    have w3 := w2.dispatch hp.disp
    have p1 := (processPoint_evals w3 hp.proc).2
    have p2 := processPoint_ctl w3.allA hp.proc
    simp only [Dispatch.st] at p1 p2
    have pm : s4.mode = s3.mode := p2.2.2.2.2.2.2.2.2.1
    obtain ⟨-, -, -, -, -, -, -, -, -, -, -, f1, -⟩ := endPass_ctl hp.fin
    have m4 : ModeOK P s4 := by
      intro h; apply hm; rw [pm, d2] at h
      have : s2.mode = s1.mode := e2
      rw [this, r3] at h; exact h
    unfold NoisyOK
    rw [f1]
    constructor
    · cases hmd : s3.mode with
      | noisy => have := r5.2 hmd; omega
      | accurate => have := p1.2 hmd; have := r5.1; omega
    · intro hn
      obtain ⟨g1, g2, -⟩ := endPass_mode hp.fin m4 hn
      unfold noisyBound
      omega

theorem Reach.noisy {P : Params} {env : Env O} {o : O} {c : Ctl} {s : Alg O} {S : ℕ}
    (hS : ∀ s pts o, env.initNodes s = .ok (pts, o) → pts.length ≤ S)
    (h : Reach P env o c s) : NoisyOK P S s := by
  refine h.inv_pass (I := fun _ s => NoisyOK P S s) ?_ ?_ ?_ ?_
    (fun _ _ _ _ _ h => h)
  · simp [NoisyOK, Alg.init, noisyBound]
  · intro s s' loc pause hr hs h
    obtain ⟨-, -, ⟨h0, hre⟩ | ⟨h0, rfl⟩⟩ := serialStart_cases h
    · exact hs.restart hS hre
    · exact hs
  · intro s s' start pause loc loc' hr hs hc hp
    exact hs.pass hS hr.wf hr.modeOK hp
  · intro s start pause loc hr hs hc
    exact hs.congr rfl rfl

/-! ## Gap -/

theorem computeGapQ_mono {P : Params} (hz : 0 < P.epsZero) {a b : ℚ} (h : a ≤ b) :
    computeGapQ P a ≤ computeGapQ P b := by
  unfold computeGapQ
  dsimp only
  have hden : 0 < (if |P.target| ≥ P.epsZero then |P.target| else 1) := by
    split
    · rename_i h; exact lt_of_lt_of_le hz h
    · norm_num
  exact div_le_div_of_nonneg_right (by linarith) hden.le

theorem computeGap_mono {P : Params} (hz : 0 < P.epsZero) {a b : EVal} (h : a ≤ b) :
    computeGap P a ≤ computeGap P b := by
  induction b using WithTop.recTopCoe with
  | top => simp [computeGap]
  | coe b =>
    induction a using WithTop.recTopCoe with
    | top => simp at h
    | coe a =>
      simp only [computeGap, WithTop.map_coe]
      exact WithTop.coe_le_coe.mpr (computeGapQ_mono hz (WithTop.coe_le_coe.mp h))

/-- The recorded best value never gets worse along elementary changes. -/
theorem fbest_micro {P : Params} {env : Env O} {s t : Alg O} (w : WF env s)
    (hm : Micro P env s t) : t.fbest ≤ s.fbest := by
  cases hm with
  | ctrl e => exact le_of_eq (congrArg Data.fbest e)
  | log obj gap =>
    obtain ⟨g, st, e⟩ := updateLog_frame s obj gap
    rw [e]
  | restart hr =>
    obtain ⟨tb, calls, m, M, i, ho⟩ := restart_spec hr
    rw [ho.fbest]; exact min_le_left _ _
  | removeLocal i _ _ hr =>
    obtain ⟨_, _, rfl⟩ := removeNode_spec hr
    exact le_refl _
  | erase is _ _ => exact le_refl _
  | removeRest i p t' _ hr =>
    obtain ⟨_, _, rfl⟩ := removeNode_spec hr
    exact le_refl _
  | add loc p0 d r hd hlt hev hadd =>
    obtain ⟨calls, ho⟩ := evaluateNext_spec hev w.allA
    obtain ⟨e, ha, _, _⟩ := addResult_spec hadd
    obtain ⟨-, -, -, -, -, -, -, q8, -⟩ := ho.data_eqs
    rw [ha.fbest, q8]; exact min_le_left _ _
  | phase _ _ => exact le_refl _

theorem fbest_micros {P : Params} {env : Env O} {s t : Alg O} (w : WF env s)
    (hm : Micros P env s t) : t.fbest ≤ s.fbest ∧ WF env t := by
  induction hm with
  | refl => exact ⟨le_refl _, w⟩
  | tail _ h ih => exact ⟨(fbest_micro ih.2 h).trans ih.1, ih.2.micro h⟩

/-- In single-phase runs the gap is the gap of the best value. -/
theorem currentGap_single {P : Params} {s : Alg O} (hs : SingleOK s) {gap : EVal}
    (ha : s.all.Aligned) (h : currentGap P s = .ok gap) : gap = computeGap P s.fbest := by
  unfold currentGap at h
  split at h
  · cases h
  · rename_i e he
    cases h
    have hlt := (List.getElem?_eq_some_iff.mp he).1
    obtain ⟨a1, a2, a3⟩ := ha
    have := hs.2.2 s.fbestIdx _ _ _ e (List.getElem?_eq_getElem (by omega))
      (List.getElem?_eq_getElem (by omega)) (List.getElem?_eq_getElem (by omega)) he
    rw [this.2]; simp

/-- The gap tested by the loop is at least the gap of the best recorded value. -/
def GapOK (P : Params) : Ctl → Alg O → Prop
  | .idle, _ => True
  | .running _ _ loc, s => computeGap P s.fbest ≤ loc.gap

theorem Reach.gap {P : Params} {env : Env O} {o : O} {c : Ctl} {s : Alg O}
    (hz : 0 < P.epsZero) (hP : P.twoPhase = false)
    (h : Reach P env o c s) : GapOK P c s := by
  refine h.inv_pass (I := GapOK P) trivial ?_ ?_ (fun _ _ _ _ _ _ _ => trivial)
    (fun _ _ _ _ _ _ => trivial)
  · intro s s' loc pause hr hs h
    obtain ⟨-, hg, -⟩ := serialStart_cases h
    have hr' : Reach P env o (.running s.itercount pause loc) s' := hr.call pause h
    rw [GapOK, currentGap_single (hr'.single hP) hr'.wf.allA hg]
  · intro s s' start pause loc loc' hr hs hc hp
    have hr' := hr.pass hc hp
    have w := hr.wf
    have hmon := (fbest_micros w (pass_micros hp)).1
    have same : loc' = loc → GapOK P (.running start pause loc') s' := by
      intro e
      rw [e]
      exact (computeGap_mono hz hmon).trans hs
    cases pass_inv hp with
    | skip hs hs' hl => exact same hl
    | linFail s1 o hs h1 h2 h3 hl => exact same hl
    | cont s1 s2 o hs h1 h2 h3 h4 hl => exact same hl
    | iter s1 s2 s3 s4 o' next ref hp =>
      rcases processPoint_cases hp.proc with ⟨_, e⟩ |
        ⟨p0, d, r, t1, gap, t2, rfl, hd, hlt, hev, hadd, hgap, haft, rfl, rfl⟩
      · exact same e
      · have e1 : t2.fbest = (updateLog t1 r.val gap).fbest :=
          congrArg Data.fbest (afterAdd_data haft)
        have e1' : t2.all = (updateLog t1 r.val gap).all :=
          congrArg Data.all (afterAdd_data haft)
        have e1'' : t2.fbestIdx = (updateLog t1 r.val gap).fbestIdx :=
          congrArg Data.fbestIdx (afterAdd_data haft)
        obtain ⟨g, st, e⟩ := updateLog_frame t1 r.val gap
        rw [e] at e1 e1' e1''
        obtain ⟨-, -, -, -, -, -, -, -, f1, -, -, -, f2, f3, -⟩ := endPass_ctl hp.fin
        dsimp only at e1 e1' e1'' f1 f2 f3
        have hgap' : currentGap P s' = .ok gap := by
          unfold currentGap at hgap ⊢
          rw [f1, f2, f3, e1, e1', e1'']; exact hgap
        rw [GapOK, currentGap_single (hr'.single hP) hr'.wf.allA hgap']

end Rbfopt
