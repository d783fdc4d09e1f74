import Verif.Spec.Discarded
import Verif.Props.Pass

/-!
# Restarts because of discarded iterations (C95)
-/

namespace Rbfopt

variable {O : Type} {P : Params} {env : Env O} {o : O} {c : Ctl} {s : Alg O} {h : List Bool}

theorem lastOf_eq_drop {α : Type} (w : ℕ) (l : List α) : lastOf w l = l.drop (l.length - w) := by
  unfold lastOf
  rw [List.take_reverse, List.reverse_reverse]

theorem dequePush_lastOf {α : Type} (w : ℕ) (l : List α) (b : α) :
    dequePush w (lastOf w l) b = lastOf w (l ++ [b]) := by
  rw [lastOf_eq_drop, lastOf_eq_drop]
  unfold dequePush
  dsimp only
  rw [show l.drop (l.length - w) ++ [b] = (l ++ [b]).drop (l.length - w) by
    rw [List.drop_append_of_le_length (by omega)], List.drop_drop]
  congr 1
  simp only [List.length_drop, List.length_append, List.length_cons, List.length_nil]
  omega

theorem lastOf_nil {α : Type} (w : ℕ) : lastOf w ([] : List α) = [] := by simp [lastOf]

theorem History.reach (hh : History P env o c s h) : Reach P env o c s := by
  induction hh with
  | init => exact .init
  | call pause _ hs ih => exact .call pause ih hs
  | pass _ hc hp ih => exact .pass ih hc hp
  | ret _ hc ih => exact .ret ih hc
  | load _ ih => exact .load ih

/-- **C95** Every state the object can be in has a history. -/
theorem C95_history_exists (hr : Reach P env o c s) : ∃ h, History P env o c s h := by
  induction hr with
  | init => exact ⟨_, .init⟩
  | call pause _ hs ih => obtain ⟨h, ih⟩ := ih; exact ⟨_, .call pause ih hs⟩
  | pass _ hc hp ih => obtain ⟨h, ih⟩ := ih; exact ⟨_, .pass ih hc hp⟩
  | ret _ hc ih => obtain ⟨h, ih⟩ := ih; exact ⟨_, .ret ih hc⟩
  | load _ ih => obtain ⟨h, ih⟩ := ih; exact ⟨_, .load ih⟩

theorem dispatch_go_data (hP : P.twoPhase = false) (hd : ∀ p, env.dist p p ≤ P.minDist) {s3 : Alg O}
    {next : Option Pt} {ref : Option RefProposal} (h : dispatch P env s = .ok (.go s3 next ref)) :
    s3.data = s.data := by
  unfold dispatch at h
  split at h
  · split at h
    · cases h
    · cases h; rfl
  · split at h
    · split at h
      · cases h
      · split at h
        · cases h
        · split at h <;> cases h
      · rename_i hrs
        unfold restorationSearch at hrs
        rw [restorationLoop_none hd] at hrs
        cases hrs
    · split at h
      · split at h
        · cases h
        · unfold localDispatch at h
          rw [if_neg (by rw [hP]; simp)] at h
          unfold eraseErr at h
          rw [if_neg (by rw [hP]; simp)] at h
          cases h; rfl
      · split at h
        · split at h
          · cases h
          · cases h; rfl
        · split at h
          · cases h
          · cases h; rfl

/-- Effect of processing a point on the tables and the window. -/
theorem processPoint_window {s' : Alg O} {loc loc' : Loc} {next : Option Pt} {ref : Option RefProposal}
    (ha : s.all.Aligned) (h : processPoint P env s loc next ref = .ok (s', loc')) :
    s'.nAtRestart = s.nAtRestart ∧ s'.nInit = s.nInit ∧
    ((s'.discarded = dequePush P.discWindow s.discarded true ∧ s'.all.pos.length = s.all.pos.length ∧
        s'.cur.pos.length = s.cur.pos.length) ∨
     (s'.discarded = dequePush P.discWindow s.discarded false ∧
        s'.all.pos.length = s.all.pos.length + 1 ∧ s'.cur.pos.length = s.cur.pos.length + 1)) := by
  rcases processPoint_cases h with ⟨rfl, rfl⟩ |
    ⟨p0, d, r, s1, gap, s2, rfl, hd, hlt, hev, hadd, hgap, haft, rfl, rfl⟩
  · exact ⟨rfl, rfl, .inl ⟨rfl, rfl, rfl⟩⟩
  · have c1 := (SameCtl.evaluateNext hev ha).trans (SameCtl.addResult hadd)
    have c2 := c1.trans (SameCtl.updateLog s1 r.val gap)
    obtain ⟨calls, ho⟩ := evaluateNext_spec hev ha
    obtain ⟨g, st, er⟩ := ho.state
    obtain ⟨e, ao, -, -⟩ := addResult_spec hadd
    have e1 : (updateLog s1 r.val gap).data.all = s1.all ∧ (updateLog s1 r.val gap).data.cur = s1.cur ∧
        (updateLog s1 r.val gap).data.nAtRestart = s1.nAtRestart ∧
        (updateLog s1 r.val gap).data.nInit = s1.nInit := by
      obtain ⟨g, st, e⟩ := updateLog_frame s1 r.val gap
      rw [e]; exact ⟨rfl, rfl, rfl, rfl⟩
    have key : s2.discarded = s.discarded ∧ s2.data = (updateLog s1 r.val gap).data := by
      rcases afterAdd_cases haft with ⟨e1, rp, real, s3, e2, e3, e4, rfl⟩ | ⟨e1, e2, rfl⟩ | ⟨e1, e2, rfl⟩
      · obtain ⟨-, -, -, -, -, -, -, -, -, f, -⟩ := refinementUpdate_cases e4
        refine ⟨f.trans c2.discarded, ?_⟩
        have := refinementUpdate_data e4
        rw [← this]; rfl
      · exact ⟨c2.discarded, rfl⟩
      · exact ⟨c2.discarded, rfl⟩
    obtain ⟨k1, k2⟩ := key
    have g1 : s2.all = s1.all := (congrArg Data.all k2).trans e1.1
    have g2 : s2.cur = s1.cur := (congrArg Data.cur k2).trans e1.2.1
    have g3 : s2.nAtRestart = s1.nAtRestart := (congrArg Data.nAtRestart k2).trans e1.2.2.1
    have g4 : s2.nInit = s1.nInit := (congrArg Data.nInit k2).trans e1.2.2.2
    dsimp only
    rw [g1, g2, g3, g4, k1, ao.all, ao.cur, ao.rest.2.2.2.2.1, ao.rest.2.2.2.2.2.2.2, er]
    refine ⟨rfl, rfl, .inr ⟨rfl, ?_, ?_⟩⟩ <;> simp [Table.append]

/-- What a pass does to the window of outcomes. -/
theorem pass_window (hP : P.twoPhase = false) (hd : ∀ p, env.dist p p ≤ P.minDist)
    {start pause : ℕ} {loc loc' : Loc} {s' : Alg O} (hr : Reach P env o (.running start pause loc) s)
    (h : pass P env s loc = .ok (s', loc')) {hist : List Bool}
    (hw : s.discarded = lastOf P.discWindow hist) :
    s'.discarded = lastOf P.discWindow (outcomesAfter s s' hist) := by
  have w := hr.wf
  have hne := hr.cur_ne hP hd
  have hlt : s.nAtRestart < s.all.pos.length := by
    have h1 := w.pos.length_eq
    simp only [List.length_drop] at h1
    have : 0 < s.cur.pos.length := List.length_pos_iff.mpr hne
    omega
  -- after the first lines of the pass: a restart or nothing
  have hfirst : ∀ s1, restartIfNeeded P env { s with passes := s.passes + 1 } = .ok s1 →
      s1.itercount = s.itercount ∧ WF env s1 ∧
      ((s1.nAtRestart = s.all.pos.length ∧ s1.discarded = [] ∧ s1.nInit = s1.cur.pos.length ∧
          s.all.pos.length < s1.all.pos.length) ∨
        s1 = { s with passes := s.passes + 1 }) := by
    intro s1 h1
    have w0 : WF env { s with passes := s.passes + 1 } := w.of_data rfl
    rcases restartIfNeeded_cases h1 with ⟨_, h2⟩ | ⟨_, rfl⟩
    · refine ⟨?_, w0.restart h2, .inl ?_⟩ <;> obtain ⟨tb, calls, m, M, i, ho⟩ := restart_spec h2
      · exact ho.itercount
      · refine ⟨ho.nAt, ho.discarded, by rw [ho.nInit, ho.cur]; simp, ?_⟩
        rw [ho.all]
        have := ho.two_le
        simp only [Table.append, List.length_append]
        omega
    · exact ⟨rfl, w0, .inr rfl⟩
  unfold outcomesAfter
  cases pass_inv h with
  | skip h1 h2 h3 =>
    have e1 : s'.nAtRestart = s.nAtRestart := by rw [h2]; rfl
    have e2 : s'.itercount = s.itercount := by rw [h2]; rfl
    rw [if_pos e1, if_pos e2, h2]
    exact hw
  | linFail s1 o' hk h1 h2 h3 hl =>
    obtain ⟨i1, -, hc⟩ := hfirst s1 h1
    have b1 : s'.nAtRestart = s1.nAtRestart := congrArg Data.nAtRestart (buildModel_data h3)
    obtain ⟨_, s2, o'', h4, e⟩ := buildModel_true h3
    have b2 : s'.itercount = s1.itercount ∧ s'.discarded = s1.discarded := by
      rcases initRefIfNeeded_cases h4 with ⟨_, _, set, rad, o3, _, rfl⟩ | ⟨_, rfl⟩ <;> rw [e] <;>
        exact ⟨rfl, rfl⟩
    rcases hc with ⟨c1, c2, -⟩ | rfl
    · rw [if_neg (by omega), if_pos (by omega), b2.2, c2, lastOf_nil]
    · rw [if_pos (by rw [b1]), if_pos (by omega), b2.2]
      exact hw
  | cont s1 s2 o' hk h1 h2 h3 h4 hl =>
    obtain ⟨i1, -, hc⟩ := hfirst s1 h1
    obtain ⟨hst, s3, h5, h6⟩ := dispatch_skip h4
    have := restorationSearch_none h5
    subst this
    have b1 : s2.nAtRestart = s1.nAtRestart := congrArg Data.nAtRestart (buildModel_data h3)
    have b2 : s2.all = s1.all := congrArg Data.all (buildModel_data h3)
    obtain ⟨b3, -⟩ := buildModel_ctl h3
    have b4 : s2.discarded = s1.discarded := by
      rcases buildModel_false h3 with ⟨-, o3, rfl | rfl⟩ | ⟨-, s4, o3, h7, rfl⟩ | ⟨-, rfl⟩
      · rfl
      · rfl
      · rcases initRefIfNeeded_cases h7 with ⟨_, _, set, rad, o4, _, rfl⟩ | ⟨_, rfl⟩ <;> rfl
      · rfl
    dsimp only at b3
    rcases h6 with ⟨_, _, rfl⟩ | h6
    · simp only [advanceStep]
      rcases hc with ⟨c1, c2, -⟩ | rfl
      · rw [if_neg (by omega), if_pos (by omega), b4, c2, lastOf_nil]
      · rw [if_pos b1, if_pos b3, b4]
        exact hw
    · obtain ⟨tb, calls, m, M, i, ho⟩ := restart_spec h6
      have e1 := ho.nAt
      have e2 := ho.itercount
      dsimp only at e1 e2
      have : s'.nAtRestart ≠ s.nAtRestart := by
        rw [e1, b2]
        rcases hc with ⟨c1, c2, -, c4⟩ | rfl
        · omega
        · dsimp only; omega
      rw [if_neg this, if_pos (by omega), ho.discarded, lastOf_nil]
  | iter s1 s2 s3 s4 o' next ref hp =>
    obtain ⟨i1, w1, hc⟩ := hfirst s1 hp.restart
    have bd := buildModel_data hp.build
    have b1 : s2.nAtRestart = s1.nAtRestart := congrArg Data.nAtRestart bd
    have b2 : s2.all = s1.all := congrArg Data.all bd
    have b5 : s2.cur = s1.cur := congrArg Data.cur bd
    have b6 : s2.nInit = s1.nInit := congrArg Data.nInit bd
    obtain ⟨b3, -⟩ := buildModel_ctl hp.build
    have b4 : s2.discarded = s1.discarded := by
      rcases buildModel_false hp.build with ⟨-, o3, rfl | rfl⟩ | ⟨-, s5, o3, h7, rfl⟩ | ⟨-, rfl⟩
      · rfl
      · rfl
      · rcases initRefIfNeeded_cases h7 with ⟨_, _, set, rad, o4, _, rfl⟩ | ⟨_, rfl⟩ <;> rfl
      · rfl
    have w2 : WF env s2 := WF.of_data (s := { s1 with opq := o' }) (w1.of_data rfl) bd
    have w3 : WF env s3 := w2.dispatch hp.disp
    have dd := dispatch_go_data hP hd hp.disp
    obtain ⟨dc, -⟩ := dispatch_go hp.disp
    obtain ⟨p1, p2, p3⟩ := processPoint_window w3.allA hp.proc
    obtain ⟨q1, -⟩ := processPoint_ctl w3.allA hp.proc
    obtain ⟨f1, -, -, -, -, -, -, f8, f9, -, -, -, -, -, -, -, f17, f18, -⟩ := endPass_ctl hp.fin
    have f19 : s'.nInit = s4.nInit := by
      have := hp.fin
      unfold endPass at this
      dsimp only at this
      split at this
      · cases this
      · cases this
        unfold phaseUpdate
        rw [if_neg (by rw [hP]; simp)]
        exact congrArg Data.nInit (stallingUpdate_data P { s4 with itercount := s4.itercount + 1 })
    have d1 : s3.nAtRestart = s2.nAtRestart := congrArg Data.nAtRestart dd
    have d2 : s3.all = s2.all := congrArg Data.all dd
    have d3 : s3.cur = s2.cur := congrArg Data.cur dd
    have d4 : s3.nInit = s2.nInit := congrArg Data.nInit dd
    have d5 := dc.discarded
    have d6 := dc.itercount
    dsimp only at b3
    have hit : s'.itercount ≠ s.itercount := by omega
    rw [f17]
    rcases hc with ⟨c1, c2, c3, c4⟩ | rfl
    · rw [if_neg (by omega), if_neg hit, f8, f19, p2, d4, b6, c3]
      rcases p3 with ⟨p4, p5, p6⟩ | ⟨p4, p5, p6⟩
      · rw [p4, d5, b4, c2, p6, d3, b5, decide_eq_true rfl]
        have := dequePush_lastOf P.discWindow ([] : List Bool) true
        rwa [lastOf_nil] at this
      · rw [p4, d5, b4, c2, p6, d3, b5, decide_eq_false (by omega)]
        have := dequePush_lastOf P.discWindow ([] : List Bool) false
        rwa [lastOf_nil] at this
    · rw [if_pos (by rw [f18, p1, d1, b1]), if_neg hit, f9]
      rcases p3 with ⟨p4, p5, p6⟩ | ⟨p4, p5, p6⟩
      · rw [p4, d5, b4, p5, d2, b2]
        dsimp only
        rw [decide_eq_true rfl, hw, dequePush_lastOf]
      · rw [p4, d5, b4, p5, d2, b2]
        dsimp only
        rw [decide_eq_false (by omega), hw, dequePush_lastOf]

/-- The rolling window is the end of the history. -/
theorem History.window (hP : P.twoPhase = false) (hd : ∀ p, env.dist p p ≤ P.minDist)
    (hh : History P env o c s h) : s.discarded = lastOf P.discWindow h := by
  induction hh with
  | init => rw [lastOf_nil]; rfl
  | call pause _ hs ih =>
    obtain ⟨-, -, ⟨h0, hre⟩ | ⟨h0, rfl⟩⟩ := serialStart_cases hs
    · obtain ⟨t, calls, m, M, i, ho⟩ := restart_spec hre
      rw [if_pos h0, lastOf_nil, ho.discarded]
    · rw [if_neg h0]; exact ih
  | pass hr hc hp ih => exact pass_window hP hd hr.reach hp ih
  | ret _ hc ih => exact ih
  | load _ ih => exact ih

/-- **C95** At the first step of a cycle the algorithm restarts exactly if too many of the last
`discarded_window_size` iterations since the last restart were discarded, or if it has stalled and there is
budget left, or if the interpolation model cannot be built. -/
theorem C95_restart_rule (hP : P.twoPhase = false) (hd : ∀ p, env.dist p p = 0) (hm : 0 ≤ P.minDist)
    {start pause : ℕ} {loc loc' : Loc} {s' : Alg O}
    (hh : History P env o (.running start pause loc) s h)
    (hp : pass P env s loc = .ok (s', loc')) (hstep : s.step = P.firstStep)
    (hlocal : s.step = P.numGlobal + 1 → P.doLocal = true) :
    (TooManyDiscarded P h ∨ StalledWithBudget P s → s'.nAtRestart ≠ s.nAtRestart) ∧
    (s'.nAtRestart ≠ s.nAtRestart → TooManyDiscarded P h ∨ StalledWithBudget P s ∨
      ((∃ a : Alg O, (env.modelFails a).1 = true ∧ a.cur = s.cur) ∧
        (s.cur.pos.length < P.n + 1 ∨ s.solveUnder = true) ∧ s'.itercount = s.itercount)) := by
  have hd' : ∀ p, env.dist p p ≤ P.minDist := fun p => by rw [hd]; exact hm
  have hw := hh.window hP hd'
  have hr := hh.reach
  have hdue : RestartDue P s ↔ TooManyDiscarded P h ∨ StalledWithBudget P s := by
    unfold RestartDue TooManyDiscarded StalledWithBudget
    rw [hw]
    constructor
    · rintro ⟨-, h1⟩; exact h1
    · intro h1; exact ⟨by rw [hstep], h1⟩
  constructor
  · intro h1
    have hdu := hdue.mpr h1
    have w := hr.wf
    have hne := hr.cur_ne hP hd'
    have hlt : s.nAtRestart < s.all.pos.length := by
      have h1 := w.pos.length_eq
      simp only [List.length_drop] at h1
      have : 0 < s.cur.pos.length := List.length_pos_iff.mpr hne
      omega
    have hfirst : ∀ s1, restartIfNeeded P env { s with passes := s.passes + 1 } = .ok s1 →
        s1.nAtRestart = s.all.pos.length ∧ s.all.pos.length < s1.all.pos.length := by
      intro s1 h1
      rcases restartIfNeeded_cases h1 with ⟨_, h2⟩ | ⟨h2, _⟩
      · obtain ⟨tb, calls, m, M, i, ho⟩ := restart_spec h2
        refine ⟨ho.nAt, ?_⟩
        rw [ho.all]
        have := ho.two_le
        simp only [Table.append, List.length_append]
        omega
      · have : shouldRestart P { s with passes := s.passes + 1 } = true := shouldRestart_iff.mpr hdu
        rw [h2] at this; cases this
    cases pass_inv hp with
    | skip h1 =>
      rcases h1 with ⟨e1, e2⟩ | ⟨e1, e2⟩
      · rw [hstep] at e1
        simp [Params.firstStep, Params.infStep, e2] at e1
      · rw [hlocal e1] at e2; cases e2
    | linFail s1 o' hk h1 h2 h3 hl =>
      have b1 : s'.nAtRestart = s1.nAtRestart := congrArg Data.nAtRestart (buildModel_data h3)
      have := hfirst s1 h1
      omega
    | cont s1 s2 o' hk h1 h2 h3 h4 hl =>
      have := hfirst s1 h1
      obtain ⟨hst, s3, h5, h6⟩ := dispatch_skip h4
      have := restorationSearch_none h5
      subst this
      have b1 : s2.nAtRestart = s1.nAtRestart := congrArg Data.nAtRestart (buildModel_data h3)
      have b2 : s2.all = s1.all := congrArg Data.all (buildModel_data h3)
      rcases h6 with ⟨_, _, rfl⟩ | h6
      · simp only [advanceStep]
        omega
      · obtain ⟨tb, calls, m, M, i, ho⟩ := restart_spec h6
        have e1 := ho.nAt
        dsimp only at e1
        rw [e1, b2]
        omega
    | iter s1 s2 s3 s4 o' next ref hp =>
      have := hfirst s1 hp.restart
      have b1 : s2.nAtRestart = s1.nAtRestart := congrArg Data.nAtRestart (buildModel_data hp.build)
      have d1 : s3.nAtRestart = s2.nAtRestart := congrArg Data.nAtRestart (dispatch_go_data hP hd' hp.disp)
      obtain ⟨-, -, -, -, -, -, -, -, -, -, -, -, -, -, -, -, -, f18, -⟩ := endPass_ctl hp.fin
      have w1 : WF env s1 := by
        rcases restartIfNeeded_cases hp.restart with ⟨_, hr⟩ | ⟨_, rfl⟩
        · exact WF.restart (s := { s with passes := s.passes + 1 }) (w.of_data rfl) hr
        · exact w.of_data rfl
      have w2 : WF env s2 := WF.of_data (s := { s1 with opq := o' }) (w1.of_data rfl)
        (buildModel_data hp.build)
      have w3 : WF env s3 := w2.dispatch hp.disp
      obtain ⟨p1, -⟩ := processPoint_window w3.allA hp.proc
      omega
  · intro h1
    rcases C23_restart_reasons hr hp h1 with h2 | ⟨-, h2⟩
    · rcases hdue.mp h2 with h3 | h3
      · exact .inl h3
      · exact .inr (.inl h3)
    · exact .inr (.inr h2)

/-- **C95** Between the first steps of the cycles only a model that cannot be built leads to a restart, and
that pass counts no iteration. -/
theorem C95_only_at_first_step (hs : P.firstStep < s.step)
    {start pause : ℕ} {loc loc' : Loc} {s' : Alg O}
    (hr : Reach P env o (.running start pause loc) s)
    (hp : pass P env s loc = .ok (s', loc')) (hch : s'.nAtRestart ≠ s.nAtRestart) :
    (∃ a : Alg O, (env.modelFails a).1 = true ∧ a.cur = s.cur) ∧
      (s.cur.pos.length < P.n + 1 ∨ s.solveUnder = true) ∧ s'.itercount = s.itercount := by
  rcases C23_restart_reasons hr hp hch with h2 | ⟨-, h2⟩
  · exact absurd h2.1 (by omega)
  · exact h2

/-- **C95** With `max_fraction_discarded` above 1 there are no restarts because of discarded iterations
(unless the window is empty). -/
theorem C95_switched_off (hf : 1 < P.maxFracDisc) (hw : 0 < P.discWindow) : ¬ TooManyDiscarded P h := by
  rintro ⟨h1, h2⟩
  have hlen : ((lastOf P.discWindow h).count true : ℚ) ≤ (lastOf P.discWindow h).length := by
    exact_mod_cast List.count_le_length
  have hpos : (0 : ℚ) < (lastOf P.discWindow h).length := by
    have : (0 : ℚ) < P.discWindow := by exact_mod_cast hw
    linarith
  nlinarith

end Rbfopt
