import Verif.Lemmas.Control

/-! # Control invariants: counters, steps, termination -/

namespace Rbfopt

variable {O : Type}

theorem firstStep_le (P : Params) : P.firstStep ≤ 1 := by
  unfold Params.firstStep; split <;> omega

theorem advanceStep_step_lt (P : Params) (s : Alg O) : (advanceStep P s).step < P.cycleLength :=
  Nat.mod_lt _ (by simp [Params.cycleLength])

theorem advanceStep_cyc_le (P : Params) (s : Alg O) : s.cyc ≤ (advanceStep P s).cyc := by
  simp only [advanceStep]; split <;> omega

theorem endPass_ctl {P : Params} {s s' : Alg O} (h : endPass P s = .ok s') :
    s'.itercount = s.itercount + 1 ∧ s'.step = s.step ∧ s'.cyc = s.cyc ∧ s'.numCons = s.numCons ∧
    s'.refSet = s.refSet ∧ s'.refIter = s.refIter ∧ s'.refRadius = s.refRadius ∧ s'.cur = s.cur ∧
    s'.all = s.all ∧ s'.log = s.log ∧ s'.evalcount = s.evalcount ∧
    s'.noisyEvalcount = s.noisyEvalcount ∧ s'.fbest = s.fbest ∧ s'.fbestIdx = s.fbestIdx ∧
    s'.fmin = s.fmin ∧ s'.fminIdx = s.fminIdx ∧
    s'.discarded = s.discarded ∧ s'.nAtRestart = s.nAtRestart ∧
    s'.solveUnder = s.solveUnder ∧ s'.numNoisyRestarts = s.numNoisyRestarts ∧
    (s'.mode = s.mode ∨ s'.mode = .accurate) ∧ s'.elapsed = s.elapsed ∧ s'.passes = s.passes := by
  unfold endPass at h
  dsimp only at h
  split at h
  · cases h
  · cases h
    unfold phaseUpdate stallingUpdate
    dsimp only
    split <;> (try split) <;> (try split) <;> simp_all

/-- Control effect of processing a point. -/
theorem processPoint_ctl {P : Params} {env : Env O} {s s' : Alg O} {loc loc' : Loc}
    {next : Option Pt} {ref : Option RefProposal} (ha : s.all.Aligned)
    (h : processPoint P env s loc next ref = .ok (s', loc')) :
    s'.itercount = s.itercount ∧ s.cyc ≤ s'.cyc ∧ s'.numStalled = s.numStalled ∧
    s'.fminStall = s.fminStall ∧ s'.solveUnder = s.solveUnder ∧
    s'.numNoisyRestarts = s.numNoisyRestarts ∧ s'.elapsed = s.elapsed ∧ s'.passes = s.passes ∧
    s'.mode = s.mode ∧
    (s'.step = (s.step + 1) % P.cycleLength ∨
     (s'.step = P.refinementStep ∧
        (s.step = P.refinementStep ∨ s.step = P.localStep ∨
          (s.step = P.localStep - 1 ∧ P.doLocal = false))) ∨
     (s'.step = P.firstStep ∧ s.step = P.refinementStep)) := by
  rcases processPoint_cases h with ⟨rfl, rfl⟩ |
    ⟨p0, d, r, s1, gap, s2, rfl, hd, hlt, hev, hadd, hgap, haft, rfl, rfl⟩
  · refine ⟨rfl, advanceStep_cyc_le P s, rfl, rfl, rfl, rfl, rfl, rfl, rfl, Or.inl rfl⟩
  · have c1 := (SameCtl.evaluateNext hev ha).trans (SameCtl.addResult hadd)
    have c2 := c1.trans (SameCtl.updateLog s1 r.val gap)
    dsimp only
    rcases afterAdd_cases haft with ⟨e1, rp, real, s3, e2, e3, e4, rfl⟩ | ⟨e1, e2, rfl⟩ | ⟨e1, e2, rfl⟩
    · obtain ⟨-, -, -, f1, f2, f3, f4, f5, f6, -, f8, f7⟩ := refinementUpdate_cases e4
      have hmode : s3.mode = s.mode := by
        have := refinementUpdate_data e4
        have := congrArg Data.mode this
        exact this.trans c2.mode
      dsimp only
      rw [f1, f2, f3, f4, f5, f6, f8]
      refine ⟨c2.itercount, ?_, c2.numStalled, c2.fminStall, c2.solveUnder, c2.numNoisyRestarts,
        c2.elapsed, c2.passes, hmode, ?_⟩
      · rcases f7 with f7 | f7
        · rw [f7.2.1, c2.cyc]; omega
        · rw [f7.2.1, c2.cyc]
      · rw [c2.step] at e1
        rcases f7 with f7 | f7
        · exact Or.inr (Or.inr ⟨f7.1, e1⟩)
        · exact Or.inr (Or.inl ⟨by rw [f7.1, c2.step, e1], Or.inl e1⟩)
    · dsimp only
      refine ⟨c2.itercount, by rw [c2.cyc], c2.numStalled, c2.fminStall, c2.solveUnder,
        c2.numNoisyRestarts, c2.elapsed, c2.passes, c2.mode, Or.inr (Or.inl ⟨rfl, Or.inr ?_⟩)⟩
      simp only [startRefinement, Bool.decide_and, Bool.and_eq_true, decide_eq_true_eq] at e2
      have := e2.1
      rw [c2.step] at this
      exact this
    · have hc := advanceStep_cyc_le P (updateLog s1 r.val gap)
      rw [c2.cyc] at hc
      refine ⟨c2.itercount, hc, c2.numStalled, c2.fminStall, c2.solveUnder,
        c2.numNoisyRestarts, c2.elapsed, c2.passes, c2.mode, Or.inl ?_⟩
      simp only [advanceStep, c2.step]

theorem buildModel_ctl {P : Params} {env : Env O} {s s' : Alg O}
    (h : buildModel P env s = .ok (s', false)) :
    s'.itercount = s.itercount ∧ s'.cyc = s.cyc ∧ s'.numStalled = s.numStalled ∧
    s'.fminStall = s.fminStall ∧ s'.solveUnder = s.solveUnder ∧ s'.numCons = s.numCons ∧
    s'.numNoisyRestarts = s.numNoisyRestarts ∧ s'.elapsed = s.elapsed ∧ s'.passes = s.passes ∧
    (s'.step = s.step ∨ (s.step ≤ P.localStep ∧ s'.step = P.restorationStep)) := by
  rcases buildModel_false h with ⟨h1, o, rfl | rfl⟩ | ⟨h1, s1, o, h2, rfl⟩ | ⟨h1, rfl⟩
  · simp
  · simp [h1]
  · rcases initRefIfNeeded_cases h2 with ⟨_, _, set, rad, o', _, rfl⟩ | ⟨_, rfl⟩ <;> simp
  · simp

/-- Progress made by a pass (used for termination): an iteration is counted, or a cycle is
counted, or a switched-off first step is skipped. -/
theorem pass_progress {P : Params} {env : Env O} {s s' : Alg O} {loc loc' : Loc} (w : WF env s)
    (h : pass P env s loc = .ok (s', loc')) :
    (s'.itercount = s.itercount + 1 ∧ s.cyc ≤ s'.cyc) ∨
    (s'.itercount = s.itercount ∧ s.cyc + 1 ≤ s'.cyc) ∨
    (s'.itercount = s.itercount ∧ s'.cyc = s.cyc ∧ s.step = 0 ∧ s'.step ≠ 0) := by
  have w0 : WF env { s with passes := s.passes + 1 } := w.of_data rfl
  have hR : ∀ s1, restartIfNeeded P env { s with passes := s.passes + 1 } = .ok s1 →
      s1.itercount = s.itercount ∧ s.cyc ≤ s1.cyc ∧ WF env s1 := by
    intro s1 h1
    rcases restartIfNeeded_cases h1 with ⟨_, hr⟩ | ⟨_, rfl⟩
    · obtain ⟨t, calls, m, M, i, ho⟩ := restart_spec hr
      refine ⟨ho.itercount, by rw [ho.cyc]; simp, w0.restart hr⟩
    · exact ⟨rfl, le_refl _, w0⟩
  cases pass_inv h with
  | skip hs hs' hl =>
    rw [hs']
    rcases hs with ⟨h1, _⟩ | ⟨h1, _⟩
    · right; right
      simp only [Params.infStep] at h1
      simp [advanceStep, h1, Params.cycleLength]
    · right; left
      simp only [Params.localStep] at h1
      simp [advanceStep, h1, Params.cycleLength]
  | linFail s1 o hs h1 h2 h3 hl =>
    obtain ⟨r1, r2, _⟩ := hR s1 h1
    obtain ⟨_, s2, o', h4, rfl⟩ := buildModel_true h3
    right; left
    rcases initRefIfNeeded_cases h4 with ⟨_, _, set, rad, o'', _, rfl⟩ | ⟨_, rfl⟩ <;>
      simp [r1, r2]
  | cont s1 s2 o hs h1 h2 h3 h4 hl =>
    obtain ⟨r1, r2, _⟩ := hR s1 h1
    obtain ⟨b1, b2, -⟩ := buildModel_ctl h3
    obtain ⟨hst, s3, h5, h6⟩ := dispatch_skip h4
    have := restorationSearch_none h5
    subst this
    right; left
    rcases h6 with ⟨_, _, rfl⟩ | h6
    · have hgt : s2.step > (s2.step + 1) % P.cycleLength := by
        have hlt : (s2.step + 1) % P.cycleLength < P.cycleLength :=
          Nat.mod_lt _ (by simp [Params.cycleLength])
        rw [hst] at *
        simp only [Params.cycleLength, Params.restorationStep] at *
        omega
      dsimp only at b1 b2
      simp only [advanceStep, if_pos hgt, b1, b2, r1, true_and]
      omega
    · obtain ⟨t, calls, m, M, i, ho⟩ := restart_spec h6
      refine ⟨by rw [ho.itercount]; exact b1.trans r1, ?_⟩
      rw [ho.cyc]
      dsimp only at b2 ⊢
      omega
  | iter s1 s2 s3 s4 o next ref hp =>
    obtain ⟨r1, r2, w1⟩ := hR s1 hp.restart
    obtain ⟨b1, b2, -⟩ := buildModel_ctl hp.build
    obtain ⟨d1, _⟩ := dispatch_go hp.disp
    have w3 : WF env s3 := by
      have w2 : WF env s2 := WF.of_data (s := { s1 with opq := o }) (w1.of_data rfl)
        (buildModel_data hp.build)
      exact Micros.inv (I := WF env) (fun _ _ hs hm => hs.micro hm) w2 (dispatch_micros hp.disp)
    obtain ⟨p1, p2, -⟩ := processPoint_ctl w3.allA hp.proc
    obtain ⟨f1, -, f3, -⟩ := endPass_ctl hp.fin
    left
    dsimp only at b1 b2
    refine ⟨by rw [f1, p1, d1.itercount, b1, r1], ?_⟩
    rw [f3]
    have := d1.cyc
    omega

/-- Possible steps after a pass. -/
theorem pass_step {P : Params} {env : Env O} {s s' : Alg O} {loc loc' : Loc} (w : WF env s)
    (h : pass P env s loc = .ok (s', loc')) :
    s'.step = (s.step + 1) % P.cycleLength ∨
    s'.step = P.firstStep ∨ s'.step = (P.firstStep + 1) % P.cycleLength ∨
    s'.step = (P.restorationStep + 1) % P.cycleLength ∨
    (s'.step = P.refinementStep ∧ (s.step = P.refinementStep ∨ s.step = P.localStep ∨
      (s.step = P.localStep - 1 ∧ P.doLocal = false) ∨
      (P.firstStep = P.localStep - 1 ∧ P.doLocal = false) ∨ P.firstStep = P.localStep)) := by
  have w0 : WF env { s with passes := s.passes + 1 } := w.of_data rfl
  have hR : ∀ s1, restartIfNeeded P env { s with passes := s.passes + 1 } = .ok s1 →
      (s1.step = P.firstStep ∨ s1.step = s.step) ∧ WF env s1 := by
    intro s1 h1
    rcases restartIfNeeded_cases h1 with ⟨_, hr⟩ | ⟨_, rfl⟩
    · obtain ⟨t, calls, m, M, i, ho⟩ := restart_spec hr
      exact ⟨Or.inl ho.step, w0.restart hr⟩
    · exact ⟨Or.inr rfl, w0⟩
  cases pass_inv h with
  | skip hs hs' hl => rw [hs']; exact Or.inl rfl
  | linFail s1 o hs h1 h2 h3 hl =>
    obtain ⟨_, s2, o', h4, rfl⟩ := buildModel_true h3
    exact Or.inr (Or.inl rfl)
  | cont s1 s2 o hs h1 h2 h3 h4 hl =>
    obtain ⟨hst, s3, h5, h6⟩ := dispatch_skip h4
    have := restorationSearch_none h5
    subst this
    rcases h6 with ⟨_, _, rfl⟩ | h6
    · refine Or.inr (Or.inr (Or.inr (Or.inl ?_)))
      simp only [advanceStep, hst]
    · obtain ⟨t, calls, m, M, i, ho⟩ := restart_spec h6
      exact Or.inr (Or.inl ho.step)
  | iter s1 s2 s3 s4 o next ref hp =>
    obtain ⟨r1, w1⟩ := hR s1 hp.restart
    obtain ⟨-, -, -, -, -, -, -, -, -, b⟩ := buildModel_ctl hp.build
    obtain ⟨d1, _⟩ := dispatch_go hp.disp
    have w3 : WF env s3 := by
      have w2 : WF env s2 := WF.of_data (s := { s1 with opq := o }) (w1.of_data rfl)
        (buildModel_data hp.build)
      exact Micros.inv (I := WF env) (fun _ _ hs hm => hs.micro hm) w2 (dispatch_micros hp.disp)
    obtain ⟨-, -, -, -, -, -, -, -, -, p⟩ := processPoint_ctl w3.allA hp.proc
    obtain ⟨-, f1, -⟩ := endPass_ctl hp.fin
    rw [f1]
    rw [d1.step] at p
    have e1 : P.restorationStep ≠ P.refinementStep := by
      simp [Params.refinementStep, Params.restorationStep]
    have e2 : P.restorationStep ≠ P.localStep := by
      simp [Params.localStep, Params.restorationStep]
    have e3 : P.restorationStep ≠ P.localStep - 1 := by
      simp [Params.localStep, Params.restorationStep]
    have e4 : P.firstStep ≠ P.refinementStep := by
      have := firstStep_le P
      simp [Params.refinementStep]; omega
    rcases b with b | ⟨_, b⟩
    · dsimp only at b
      rw [b] at p
      rcases p with p | ⟨p, q⟩ | ⟨p, q⟩
      · rcases r1 with r1 | r1
        · rw [r1] at p; tauto
        · rw [r1] at p; tauto
      · rcases r1 with r1 | r1
        · rw [r1] at q
          rcases q with q | q | q <;> tauto
        · rw [r1] at q
          rcases q with q | q | q <;> tauto
      · tauto
    · rw [b] at p
      rcases p with p | ⟨p, q⟩ | ⟨p, q⟩ <;> tauto

/-- Between passes the step is a search step or the refinement step. -/
def StepOK (P : Params) (s : Alg O) : Prop := s.step ≤ P.refinementStep

theorem StepOK.pass {P : Params} {env : Env O} {s s' : Alg O} {loc loc' : Loc} (w : WF env s)
    (h : pass P env s loc = .ok (s', loc')) : StepOK P s' := by
  have hcl : ∀ k, k % P.cycleLength < P.cycleLength := fun k => Nat.mod_lt _ (by simp [Params.cycleLength])
  have hf := firstStep_le P
  unfold StepOK
  have hc : P.cycleLength = P.refinementStep := rfl
  have hr : 2 ≤ P.refinementStep := by simp [Params.refinementStep]
  rcases pass_step w h with h | h | h | h | ⟨h, _⟩ <;> rw [h]
  · have := hcl (s.step + 1); omega
  · omega
  · have := hcl (P.firstStep + 1); omega
  · have := hcl (P.restorationStep + 1); omega

theorem serialStart_cases {P : Params} {env : Env O} {s s' : Alg O} {loc : Loc}
    (h : serialStart P env s = .ok (s', loc)) :
    loc.err = none ∧ currentGap P s' = .ok loc.gap ∧
    ((s.itercount = 0 ∧ restart P env s = .ok s') ∨ (s.itercount ≠ 0 ∧ s' = s)) := by
  unfold serialStart at h
  split at h
  · cases h
  · rename_i s1 h1
    split at h
    · cases h
    · rename_i gap hg
      cases h
      refine ⟨rfl, hg, ?_⟩
      unfold firstRestart at h1
      split at h1
      · rename_i h0; exact Or.inl ⟨h0, h1⟩
      · rename_i h0; cases h1; exact Or.inr ⟨h0, rfl⟩

/-- General invariant principle for properties that hold between passes. -/
theorem Reach.inv_pass {P : Params} {env : Env O} {o : O} {I : Ctl → Alg O → Prop} {c : Ctl}
    {s : Alg O} (h : Reach P env o c s) (h0 : I .idle (Alg.init P o))
    (hcall : ∀ s s' loc pause, Reach P env o .idle s → I .idle s →
      serialStart P env s = .ok (s', loc) → I (.running s.itercount pause loc) s')
    (hpass : ∀ s s' start pause loc loc', Reach P env o (.running start pause loc) s →
      I (.running start pause loc) s → loopCond P env start pause s loc = true →
      Rbfopt.pass P env s loc = .ok (s', loc') → I (.running start pause loc') s')
    (hret : ∀ s start pause loc, Reach P env o (.running start pause loc) s →
      I (.running start pause loc) s → loopCond P env start pause s loc = false →
      I .idle { s with elapsed := s.elapsed + env.callTime s })
    (hload : ∀ s start pause loc, Reach P env o (.running start pause loc) s →
      I (.running start pause loc) s → I .idle s) : I c s := by
  induction h with
  | init => exact h0
  | call pause hr hs ih => exact hcall _ _ _ _ hr ih hs
  | pass hr hc hp ih => exact hpass _ _ _ _ _ _ hr ih hc hp
  | ret hr hc ih => exact hret _ _ _ _ hr ih hc
  | load hr ih => exact hload _ _ _ _ hr ih

theorem loopCond_iff {P : Params} {env : Env O} {start pause : ℕ} {s : Alg O} {loc : Loc} :
    loopCond P env start pause s loc = true ↔
    (s.itercount - start < pause ∧ s.itercount < P.maxIter ∧ s.evalcount < P.maxEval ∧
    ((s.evalcount : ℚ) : EVal) < P.searchSpace ∧ s.cyc < (P.maxCycles : ℤ) ∧
    ((env.clock s : ℚ) : EVal) < P.maxClock ∧ ((P.epsOpt : ℚ) : EVal) < loc.gap) := by
  simp [loopCond]

/-- Iteration counter within the limits of the run and of the current call. -/
def IterOK (P : Params) : Ctl → Alg O → Prop
  | .idle, s => s.itercount ≤ P.maxIter ∧ -1 ≤ s.cyc ∧ (s.itercount ≠ 0 → 0 ≤ s.cyc)
  | .running start pause _, s =>
    s.itercount ≤ P.maxIter ∧ start ≤ s.itercount ∧ s.itercount ≤ start + pause ∧ 0 ≤ s.cyc

theorem Reach.iter {P : Params} {env : Env O} {o : O} {c : Ctl} {s : Alg O}
    (h : Reach P env o c s) : IterOK P c s := by
  refine h.inv_pass (I := IterOK P) ?_ ?_ ?_ ?_ (fun s start pause loc _ h => ⟨h.1, by have := h.2.2.2; omega, fun _ => h.2.2.2⟩)
  · simp [IterOK, Alg.init]
  · rintro s s' loc pause hr ⟨h1, h2, h3⟩ hs
    obtain ⟨-, -, ⟨h0, hre⟩ | ⟨h0, rfl⟩⟩ := serialStart_cases hs
    · obtain ⟨t, calls, m, M, i, ho⟩ := restart_spec hre
      refine ⟨by rw [ho.itercount]; exact h1, by rw [ho.itercount], by rw [ho.itercount]; omega, ?_⟩
      rw [ho.cyc]; omega
    · exact ⟨h1, le_refl _, by omega, h3 h0⟩
  · rintro s s' start pause loc loc' hr ⟨h1, h2, h3, h4⟩ hc hp
    obtain ⟨c1, c2, -⟩ := loopCond_iff.mp hc
    have hw := hr.wf
    simp only [IterOK]
    rcases pass_progress hw hp with ⟨e1, e2⟩ | ⟨e1, e2⟩ | ⟨e1, e2, _⟩ <;> rw [e1] <;>
      refine ⟨?_, ?_, ?_, ?_⟩ <;> omega
  · rintro s start pause loc hr ⟨h1, h2, h3, h4⟩ hc
    exact ⟨h1, by dsimp only; omega, fun _ => h4⟩

theorem Reach.step {P : Params} {env : Env O} {o : O} {c : Ctl} {s : Alg O}
    (h : Reach P env o c s) : StepOK P s := by
  have hf := firstStep_le P
  have hr2 : 2 ≤ P.refinementStep := by simp [Params.refinementStep]
  refine h.inv_pass (I := fun _ s => StepOK P s) ?_ ?_ ?_ ?_ (fun _ _ _ _ _ h => h)
  · simp [StepOK, Alg.init]
  · intro s s' loc pause hr hs h
    obtain ⟨-, -, ⟨h0, hre⟩ | ⟨h0, rfl⟩⟩ := serialStart_cases h
    · obtain ⟨t, calls, m, M, i, ho⟩ := restart_spec hre
      unfold StepOK
      rw [ho.step]; omega
    · exact hs
  · intro s s' start pause loc loc' hr hs hc hp
    exact StepOK.pass hr.wf hp
  · intro s start pause loc hr hs hc
    exact hs

/-- Termination measure: passes that can still be made. -/
def passesLeft (P : Params) (s : Alg O) : ℕ :=
  2 * (P.maxIter - s.itercount) + 2 * ((P.maxCycles : ℤ) - s.cyc).toNat + (if s.step = 0 then 1 else 0)

theorem passesLeft_pass {P : Params} {env : Env O} {s s' : Alg O} {loc loc' : Loc} {start pause : ℕ}
    (w : WF env s) (hc : loopCond P env start pause s loc = true)
    (h : pass P env s loc = .ok (s', loc')) : passesLeft P s' < passesLeft P s := by
  obtain ⟨c1, c2, -, -, c5, -⟩ := loopCond_iff.mp hc
  unfold passesLeft
  rcases pass_progress w h with ⟨e1, e2⟩ | ⟨e1, e2⟩ | ⟨e1, e2, e3, e4⟩
  · split <;> split <;> omega
  · split <;> split <;> omega
  · rw [if_pos e3, if_neg e4]; omega

theorem loop_terminates {P : Params} {env : Env O} {start pause : ℕ} (fuel : ℕ) {s : Alg O}
    {loc : Loc} (w : WF env s) (hf : passesLeft P s ≤ fuel) :
    loop P env start pause fuel s loc ≠ .outOfFuel := by
  induction fuel generalizing s loc with
  | zero =>
    simp only [loop]
    split
    · rename_i hc
      obtain ⟨c1, c2, -, -, c5, -⟩ := loopCond_iff.mp hc
      exfalso
      unfold passesLeft at hf
      omega
    · simp
  | succ fuel ih =>
    simp only [loop]
    split
    · rename_i hc
      split
      · simp
      · rename_i s' loc' hp
        have hlt := passesLeft_pass w hc hp
        have w' : WF env s' := Micros.inv (I := WF env) (fun _ _ hs hm => hs.micro hm) w (pass_micros hp)
        exact ih w' (by omega)
    · simp

/-- Executions of the loop stay within `Reach`. -/
theorem loop_reach {P : Params} {env : Env O} {o : O} {start pause : ℕ} {fuel : ℕ} {s s' : Alg O}
    {loc loc' : Loc} (hr : Reach P env o (.running start pause loc) s)
    (h : loop P env start pause fuel s loc = .done s' loc') :
    Reach P env o (.running start pause loc') s' ∧ loopCond P env start pause s' loc' = false := by
  induction fuel generalizing s loc with
  | zero =>
    simp only [loop] at h
    split at h
    · cases h
    · rename_i hc; cases h; exact ⟨hr, by simpa using hc⟩
  | succ fuel ih =>
    simp only [loop] at h
    split at h
    · rename_i hc
      split at h
      · cases h
      · rename_i hp
        exact ih (hr.pass hc hp) h
    · rename_i hc; cases h; exact ⟨hr, by simpa using hc⟩

theorem optimize_cases {P : Params} {env : Env O} {fuel pause : ℕ} {s : Alg O} {r : OptResult O}
    (h : optimize P env fuel pause s = .ret r) :
    ∃ s1 loc s2 loc2, serialStart P env s = .ok (s1, loc) ∧
      loop P env s.itercount pause fuel s1 loc = .done s2 loc2 ∧
      r.final = { s2 with elapsed := s2.elapsed + env.callTime s2 } ∧
      IsLeastAt s2.all.val (s2.all.val.idxOf r.value) r.value ∧
      (∃ i : ℕ, s2.all.pos[i]? = some r.point ∧ s2.all.val[i]? = some r.value) ∧
      r.itercount = s2.itercount ∧ r.evalcount = s2.evalcount ∧
      r.noisyEvalcount = s2.noisyEvalcount := by
  unfold optimize at h
  split at h
  · cases h
  · rename_i s1 loc hs
    split at h
    · cases h
    · cases h
    · rename_i s2 loc2 hl
      refine ⟨s1, loc, s2, loc2, hs, hl, ?_⟩
      unfold optimizeReturn at h
      dsimp only at h
      split at h
      · cases h
      · rename_i v i hm
        obtain ⟨a1, a2, _⟩ := argminVal_some hm
        split at h
        · rename_i p e b hp he hb
          cases h
          have hmem := List.mem_of_getElem? a1
          refine ⟨rfl, ⟨?_, a2⟩, ⟨i, hp, a1⟩, rfl, rfl, rfl⟩
          simp only
          rw [List.getElem?_eq_getElem (List.idxOf_lt_length_of_mem hmem)]
          simp
        · cases h

theorem optimize_reach {P : Params} {env : Env O} {o : O} {fuel pause : ℕ} {s : Alg O}
    {r : OptResult O} (hr : Reach P env o .idle s) (h : optimize P env fuel pause s = .ret r) :
    Reach P env o .idle r.final := by
  obtain ⟨s1, loc, s2, loc2, hs, hl, hf, -⟩ := optimize_cases h
  obtain ⟨h1, h2⟩ := loop_reach (hr.call pause hs) hl
  rw [hf]
  exact h1.ret h2

end Rbfopt
