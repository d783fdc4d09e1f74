import Verif.Lemmas.More
import Verif.Spec.Refine

/-! # Refinement phase and stalling -/

namespace Rbfopt

variable {O : Type}

theorem unlimited_iff {P : Params} {s : Alg O} :
    unlimitedRefinement P s = true ↔
      UnlimitedActive P s.itercount s.evalcount s.elapsed s.numStalled := by
  simp [unlimitedRefinement, UnlimitedActive]

theorem shouldRestart_ref {P : Params} {s : Alg O} (h : s.step = P.refinementStep) :
    shouldRestart P s = false := by
  have hf := firstStep_le P
  have : ¬ s.step ≤ P.firstStep := by rw [h]; simp only [Params.refinementStep]; omega
  simp [shouldRestart, this]

/-- A pass that starts and ends in the refinement step. -/
theorem pass_refine {P : Params} {env : Env O} {s s' : Alg O} {loc loc' : Loc} (w : WF env s)
    (hs : s.step = P.refinementStep) (h : pass P env s loc = .ok (s', loc'))
    (hs' : s'.step = P.refinementStep) :
    s'.numCons = s.numCons + 1 ∧ P.refMinRadius ≤ s'.refRadius ∧
    (s.numCons + 1 < P.maxConsRef ∨
      UnlimitedActive P s.itercount s'.evalcount s.elapsed s.numStalled) ∧
    s'.cur.pos.length = s.cur.pos.length + 1 := by
  have hf := firstStep_le P
  have w0 : WF env { s with passes := s.passes + 1 } := w.of_data rfl
  have hR : ∀ s1, restartIfNeeded P env { s with passes := s.passes + 1 } = .ok s1 →
      s1 = { s with passes := s.passes + 1 } := by
    intro s1 h1
    rcases restartIfNeeded_cases h1 with ⟨h2, _⟩ | ⟨_, h2⟩
    · rw [shouldRestart_ref (s := { s with passes := s.passes + 1 }) hs] at h2; cases h2
    · exact h2
  have ne : (P.refinementStep + 1) % P.cycleLength ≠ P.refinementStep := by
    have : (P.refinementStep + 1) % P.cycleLength < P.cycleLength :=
      Nat.mod_lt _ (by simp [Params.cycleLength])
    have hc : P.cycleLength = P.refinementStep := rfl
    omega
  have nf : P.firstStep ≠ P.refinementStep := by simp only [Params.refinementStep]; omega
  cases pass_inv h with
  | skip h1 h2 h3 =>
    rw [h2] at hs'
    exact absurd (by simpa [advanceStep, hs] using hs') ne
  | linFail s1 o hk h1 h2 h3 hl =>
    obtain ⟨_, s2, o', h4, rfl⟩ := buildModel_true h3
    exact absurd hs' nf
  | cont s1 s2 o hk h1 h2 h3 h4 hl =>
    obtain ⟨hst, -⟩ := dispatch_skip h4
    obtain ⟨-, -, -, -, -, -, -, -, -, b⟩ := buildModel_ctl h3
    have := hR s1 h1
    subst this
    dsimp only at b
    rw [hs, hst] at b
    simp only [Params.restorationStep, Params.refinementStep, Params.localStep] at b
    omega
  | iter s1 s2 s3 s4 o next ref hp =>
    have := hR s1 hp.restart
    subst this
    obtain ⟨b1, b2, b3, b4, b5, b6, b7, b8, b9, b⟩ := buildModel_ctl hp.build
    have b0 := buildModel_data hp.build
    obtain ⟨d1, _⟩ := dispatch_go hp.disp
    have w3 : WF env s3 := by
      have w2 : WF env s2 := WF.of_data (s := { s with passes := s.passes + 1, opq := o })
        (w0.of_data rfl) b0
      exact w2.dispatch hp.disp
    obtain ⟨f1, f2, f3, f4, f5, f6, f7, f8, f9, f10, f11, -⟩ := endPass_ctl hp.fin
    have st2 : s2.step = P.refinementStep := by
      dsimp only at b
      rcases b with b | ⟨b, _⟩
      · rw [b, hs]
      · rw [hs] at b; simp only [Params.refinementStep, Params.localStep] at b; omega
    rcases processPoint_cases hp.proc with ⟨rfl, -⟩ |
      ⟨p0, d, r, t1, gap, t2, hne, hd, hlt, hev, hadd, hgap, haft, rfl, -⟩
    · rw [f2] at hs'
      exact absurd (by simpa [discardPoint, advanceStep, d1.step, st2] using hs') ne
    · have c1 := (SameCtl.evaluateNext hev w3.allA).trans (SameCtl.addResult hadd)
      have c2 := c1.trans (SameCtl.updateLog t1 r.val gap)
      have hcur : t2.cur = t1.cur := by
        have e1 : t2.cur = (updateLog t1 r.val gap).cur := congrArg Data.cur (afterAdd_data haft)
        obtain ⟨g, st, e⟩ := updateLog_frame t1 r.val gap
        rw [e] at e1; exact e1
      have hcur1 : t1.cur.pos.length = s3.cur.pos.length + 1 := by
        obtain ⟨calls, ho⟩ := evaluateNext_spec hev w3.allA
        obtain ⟨er, hadd', _, _⟩ := addResult_spec hadd
        obtain ⟨q1, -⟩ := ho.data_eqs
        rw [hadd'.cur, q1]; simp [Table.append]
      have hcur3 : s3.cur = s.cur := by
        have e0 : s2.cur = s.cur := congrArg Data.cur b0
        have hd := hp.disp
        unfold dispatch at hd
        rw [if_neg (by rw [st2]; simp [Params.refinementStep, Params.infStep]),
          if_neg (by rw [st2]; simp [Params.refinementStep, Params.restorationStep]),
          if_neg (by rw [st2]; simp [Params.refinementStep, Params.localStep]), if_pos st2] at hd
        split at hd
        · cases hd
        · cases hd; exact e0
      have hev2 : s'.evalcount = t2.evalcount := f11
      rcases afterAdd_cases haft with ⟨e1, rp, real, s5, e2, e3, e4, rfl⟩ | ⟨e1, -⟩ | ⟨e1, -⟩
      · obtain ⟨-, g1, g2, g3, g4, g5, g6, g7, g8, g9, g10, g11⟩ := refinementUpdate_cases e4
        rcases g11 with ⟨g11, -⟩ | ⟨g11, g12, g13, g14, g15, -⟩
        · dsimp only at f2
          rw [f2, g11] at hs'
          exact absurd hs' nf
        · dsimp only at f4 f7 f11 f8 hcur hev2
          refine ⟨?_, ?_, ?_, ?_⟩
          · rw [f4, g13, c2.numCons, d1.numCons, b6]
          · rw [f7]; exact not_lt.mp g14
          · rcases g15 with g15 | g15
            · left
              rw [g13, c2.numCons, d1.numCons, b6] at g15; exact g15
            · right
              rw [unlimited_iff, g3, g4, g8, c2.itercount, c2.numStalled, c2.elapsed,
                d1.itercount, d1.numStalled, d1.elapsed, b1, b3, b8] at g15
              rw [hev2]; exact g15
          · rw [f8, hcur, hcur1, hcur3]
      · rw [c2.step, d1.step, st2] at e1; exact absurd rfl e1
      · rw [c2.step, d1.step, st2] at e1; exact absurd rfl e1

/-! ## Validity of refinement indices -/

def RefOK (s : Alg O) : Prop :=
  s.numCons ≠ 0 → (∀ j ∈ s.refSet, j < s.cur.pos.length) ∧ s.refIter < s.cur.pos.length

/-- A step of the dispatch removes at most one node. -/
theorem dispatch_go_len {P : Params} {env : Env O} {s s' : Alg O} {next : Option Pt}
    {ref : Option RefProposal} (hd : ∀ p, env.dist p p ≤ P.minDist)
    (h : dispatch P env s = .ok (.go s' next ref)) :
    s.cur.pos.length ≤ s'.cur.pos.length + 1 := by
  unfold dispatch at h
  split at h
  · split at h
    · cases h
    · cases h; exact Nat.le_succ _
  · split at h
    · split at h
      · cases h
      · split at h
        · cases h
        · split at h
          · cases h
          · cases h
      · rename_i p s1 hr
        unfold restorationSearch at hr
        rw [restorationLoop_none hd] at hr
        cases hr
    · split at h
      · split at h
        · cases h
        · rename_i lp o _
          have he : (eraseErr P { s with opq := o } lp.erased).cur.pos = s.cur.pos := by
            unfold eraseErr; split <;> rfl
          generalize eraseErr P { s with opq := o } lp.erased = s1 at h he
          rw [← he]
          unfold localDispatch at h
          split at h
          · split at h
            · split at h
              · cases h
              · split at h
                · split at h
                  · split at h
                    · cases h
                    · rename_i hr
                      cases h
                      obtain ⟨h1, _, rfl⟩ := removeNode_spec hr
                      simp only [Table.eraseIdx, List.length_eraseIdx]
                      split <;> omega
                  · cases h; exact Nat.le_succ _
                · cases h
            · cases h; exact Nat.le_succ _
          · cases h; exact Nat.le_succ _
      · split at h
        · split at h
          · cases h
          · cases h; exact Nat.le_succ _
        · split at h
          · cases h
          · cases h; exact Nat.le_succ _

theorem RefOK.pass {P : Params} {env : Env O} {s s' : Alg O} {loc loc' : Loc} (w : WF env s)
    (hd : ∀ p, env.dist p p ≤ P.minDist)
    (hin : ∀ s set rad o, env.initRef s = .ok ((set, rad), o) → ∀ j ∈ set, j < s.cur.pos.length)
    (h0 : RefOK s) (h : pass P env s loc = .ok (s', loc')) : RefOK s' := by
  have w0 : WF env { s with passes := s.passes + 1 } := w.of_data rfl
  have hR : ∀ s1, restartIfNeeded P env { s with passes := s.passes + 1 } = .ok s1 →
      RefOK s1 ∧ WF env s1 := by
    intro s1 h1
    rcases restartIfNeeded_cases h1 with ⟨_, hr⟩ | ⟨_, rfl⟩
    · obtain ⟨t, calls, m, M, i, ho⟩ := restart_spec hr
      exact ⟨fun h => absurd ho.numCons h, w0.restart hr⟩
    · exact ⟨h0, w0⟩
  have hI : ∀ (a b : Alg O), RefOK a → initRefIfNeeded env a = .ok b →
      ((∀ j ∈ b.refSet, j < b.cur.pos.length) ∧ b.refIter < b.cur.pos.length) := by
    intro a b ha hb
    rcases initRefIfNeeded_cases hb with ⟨_, hlt, set, rad, o, hi, rfl⟩ | ⟨hn, rfl⟩
    · have hx := hin _ _ _ _ hi
      exact ⟨hx, hlt⟩
    · exact ha hn
  cases pass_inv h with
  | skip h1 h2 h3 => rw [h2]; exact h0
  | linFail s1 o hk h1 h2 h3 hl =>
    obtain ⟨_, s2, o', h4, rfl⟩ := buildModel_true h3
    intro _
    have hx := hI { s1 with opq := o } s2 (hR s1 h1).1 h4
    exact hx
  | cont s1 s2 o hk h1 h2 h3 h4 hl =>
    obtain ⟨hst, s3, h5, h6⟩ := dispatch_skip h4
    have := restorationSearch_none h5
    subst this
    rcases h6 with ⟨_, _, rfl⟩ | h6
    · have hb := (hR s1 h1).1
      rcases buildModel_false h3 with ⟨-, o', rfl | rfl⟩ | ⟨-, s4, o', h7, rfl⟩ | ⟨-, rfl⟩
      · exact hb
      · exact hb
      · intro _
        have hx := hI { s1 with opq := o } s4 hb h7
        exact hx
      · exact hb
    · obtain ⟨t, calls, m, M, i, ho⟩ := restart_spec h6
      exact fun h => absurd ho.numCons h
  | iter s1 s2 s3 s4 o next ref hp =>
    obtain ⟨hb, w1⟩ := hR s1 hp.restart
    have w2 : WF env s2 := WF.of_data (s := { s1 with opq := o }) (w1.of_data rfl)
      (buildModel_data hp.build)
    have w3 := w2.dispatch hp.disp
    have hc3 := dispatch_go_len hd hp.disp
    obtain ⟨d1, _⟩ := dispatch_go hp.disp
    have hb2 : RefOK s2 ∧ (s2.step = P.refinementStep →
        (∀ j ∈ s2.refSet, j < s2.cur.pos.length) ∧ s2.refIter < s2.cur.pos.length) := by
      rcases buildModel_false hp.build with ⟨e, o', rfl | rfl⟩ | ⟨-, s4, o', h7, rfl⟩ | ⟨e, rfl⟩
      · refine ⟨hb, fun h => ?_⟩
        dsimp only at h e
        simp only [Params.localStep, Params.refinementStep] at e h; omega
      · refine ⟨hb, fun h => ?_⟩
        simp only [Params.restorationStep, Params.refinementStep] at h; omega
      · have := hI { s1 with opq := o } s4 hb h7
        exact ⟨fun _ => this, fun _ => this⟩
      · refine ⟨hb, fun h => ?_⟩
        dsimp only at h e; omega
    have hb3 : (s3.numCons ≠ 0 →
        (∀ j ∈ s3.refSet, j < s2.cur.pos.length) ∧ s3.refIter < s2.cur.pos.length) ∧
        (s3.step = P.refinementStep →
        (∀ j ∈ s3.refSet, j < s2.cur.pos.length) ∧ s3.refIter < s2.cur.pos.length) := by
      rw [d1.refSet, d1.refIter, d1.step, d1.numCons]; exact hb2
    obtain ⟨f1, f2, f3, f4, f5, f6, f7, f8, -⟩ := endPass_ctl hp.fin
    unfold RefOK
    rw [f4, f5, f6, f8]
    rcases processPoint_cases hp.proc with ⟨rfl, -⟩ |
      ⟨p0, d, r, t1, gap, t2, hne, hd, hlt, hev, hadd, hgap, haft, rfl, -⟩
    · intro h; exact absurd rfl h
    · have c1 := (SameCtl.evaluateNext hev w3.allA).trans (SameCtl.addResult hadd)
      have c2 := c1.trans (SameCtl.updateLog t1 r.val gap)
      have hcu : (updateLog t1 r.val gap).cur = t1.cur := by
        obtain ⟨g, st, e⟩ := updateLog_frame t1 r.val gap
        rw [e]
      have hcur : t2.cur = t1.cur := by
        have e1 : t2.cur = (updateLog t1 r.val gap).cur := congrArg Data.cur (afterAdd_data haft)
        rw [e1, hcu]
      have hlen : t2.cur.pos.length = s3.cur.pos.length + 1 := by
        obtain ⟨calls, ho⟩ := evaluateNext_spec hev w3.allA
        obtain ⟨er, hadd', _, _⟩ := addResult_spec hadd
        obtain ⟨q1, -⟩ := ho.data_eqs
        rw [hcur, hadd'.cur, q1]; simp [Table.append]
      have hmono : ((∀ j ∈ s3.refSet, j < s2.cur.pos.length) ∧ s3.refIter < s2.cur.pos.length) →
          (∀ j ∈ s3.refSet, j < t2.cur.pos.length) ∧ s3.refIter < t2.cur.pos.length := by
        rintro ⟨a1, a2⟩
        exact ⟨fun j hj => by have := a1 j hj; omega, by omega⟩
      dsimp only
      rcases afterAdd_cases haft with ⟨e1, rp, real, s5, e2, e3, e4, rfl⟩ | ⟨e1, -, rfl⟩ | ⟨e1, -, rfl⟩
      · obtain ⟨-, g1, g2, g3, g4, g5, g6, g7, g8, g9, g10, g11⟩ := refinementUpdate_cases e4
        dsimp only at hcur hlen hmono ⊢
        rw [c2.step] at e1
        obtain ⟨k1, k2⟩ := hmono (hb3.2 e1)
        rcases g11 with ⟨g11, g12, g13, -⟩ | ⟨g11, g12, g13, g14, g15, g16, g17, k, g18⟩
        · intro h; exact absurd g13 h
        · intro _
          rw [c2.refIter, hcu, ← hcur] at g17
          rw [c2.refSet, hcu, ← hcur] at g18
          refine ⟨?_, ?_⟩
          · rcases g18 with g18 | g18 <;> rw [g18]
            · exact k1
            · intro j hj
              rcases List.mem_or_eq_of_mem_set hj with hj | hj
              · exact k1 j hj
              · omega
          · rcases g17 with g17 | g17 <;> rw [g17]
            · exact k2
            · omega
      · dsimp only at hlen hmono ⊢
        rw [c2.numCons, c2.refSet, c2.refIter]
        exact fun h => hmono (hb3.1 h)
      · dsimp only [advanceStep] at hlen hmono ⊢
        rw [c2.numCons, c2.refSet, c2.refIter]
        exact fun h => hmono (hb3.1 h)

theorem Reach.refOK {P : Params} {env : Env O} {o : O} {c : Ctl} {s : Alg O}
    (hd : ∀ p, env.dist p p ≤ P.minDist)
    (hin : ∀ s set rad o, env.initRef s = .ok ((set, rad), o) → ∀ j ∈ set, j < s.cur.pos.length)
    (h : Reach P env o c s) : RefOK s := by
  refine h.inv_pass (I := fun _ s => RefOK s) ?_ ?_ ?_ ?_ (fun _ _ _ _ _ h => h)
  · intro h; simp [Alg.init] at h
  · intro s s' loc pause hr hs h
    obtain ⟨-, -, ⟨h0, hre⟩ | ⟨h0, rfl⟩⟩ := serialStart_cases h
    · obtain ⟨t, calls, m, M, i, ho⟩ := restart_spec hre
      exact fun h => absurd ho.numCons h
    · exact hs
  · intro s s' start pause loc loc' hr hs hc hp
    exact RefOK.pass hr.wf hd hin hs hp
  · intro s start pause loc hr hs hc
    exact hs

end Rbfopt
