import Verif.Props.ParallelIntervals
import Verif.Lemmas.TwoPhase
import Verif.Examples.ParallelStopNoisy

/-! # The tracked values of a parallel run with `evaluate_noisy()` (C02) -/

namespace Rbfopt

variable {O : Type} {P : Params} {env : Env O} {pe : PEnv O}

theorem BoundOK.of_eqs {a b : Alg O} (h : BoundOK a) (e1 : b.all = a.all) (e2 : b.cur = a.cur)
    (e3 : b.fbest = a.fbest) (e4 : b.fmin = a.fmin) (e5 : b.fmax = a.fmax) : BoundOK b := by
  unfold BoundOK; rw [e1, e2, e3, e4, e5]; exact h

theorem BoundOK.of_data {a b : Alg O} (h : BoundOK a) (hd : b.data = a.data) : BoundOK b :=
  h.of_eqs (congrArg Data.all hd) (congrArg Data.cur hd) (congrArg Data.fbest hd)
    (congrArg Data.fmin hd) (congrArg Data.fmax hd)

theorem BoundOK.endPass {a b : Alg O} (h : BoundOK a) (he : endPass P a = .ok b) : BoundOK b := by
  obtain ⟨-, -, -, -, -, -, -, c0, c1, -, -, -, c5, -, c6, -⟩ := endPass_ctl he
  refine h.of_eqs c1 c0 c5 c6 ?_
  unfold Rbfopt.endPass at he
  dsimp only at he
  split at he
  · cases he
  · cases he
    unfold phaseUpdate stallingUpdate
    dsimp only
    split <;> (try split) <;> (try split) <;> rfl

theorem BoundOK.add {a b : Alg O} {p orig : Pt} {v : ℚ} {f : Bool} {e : ℚ × ℚ} (h : BoundOK a)
    (ho : AddOut a b p orig v f e) : BoundOK b := by
  refine ⟨?_, ?_⟩
  · rw [ho.all, ho.fbest]
    intro w hw
    rcases List.mem_append.mp hw with hw | hw
    · exact (min_le_left _ _).trans (h.1 w hw)
    · rw [List.mem_singleton.mp hw]; exact min_le_right _ _
  · rw [ho.cur, ho.fmin, ho.fmax]
    intro w hw
    rcases List.mem_append.mp hw with hw | hw
    · exact ⟨(min_le_left _ _).trans (h.2 w hw).1, (h.2 w hw).2.trans (le_max_left _ _)⟩
    · rw [List.mem_singleton.mp hw]; exact ⟨min_le_right _ _, le_max_right _ _⟩

theorem PReach.bound {o : O} {c : PCtl} {s : PState O} (h : PReach P env pe o c s) :
    BoundOK s.alg := by
  refine h.inductB (I := fun s => BoundOK s.alg) ?_ ?_ ?_ ?_ ?_ ?_ ?_ ?_ ?_ ?_ ?_
  · simp [BoundOK, Alg.init]
  · intro s s' _ hI hc
    exact hI.of_data hc.data
  · intro s s' b j hb hI hp hc
    obtain ⟨job, d, hj, hd, hcase⟩ := collectJob_cases hc
    rcases hcase with ⟨_, tb, rfl⟩ | ⟨_, hn, _, a, ha, rfl⟩ |
      ⟨_, gap, a, a', rc, rb, hg, hda, _, _, _, ha, _, _, rfl⟩
    · exact hI
    · have hI' : BoundOK (collectRepeat env (takeJob pe s j job) job (jobResult pe job).1).alg := hI
      exact hI'.endPass ha
    · have h1 := BoundOK.add hI (addJob_spec (pe := pe) (env := env) s.alg job)
      obtain ⟨g, st, hl⟩ := updateLog_frame (addJob pe env s.alg job) (jobResult pe job).1 gap
      rw [hl] at hda
      exact BoundOK.endPass (h1.of_eqs (congrArg Data.all hda) (congrArg Data.cur hda)
        (congrArg Data.fbest hda) (congrArg Data.fmin hda) (congrArg Data.fmax hda)) ha
  · intro s s' j res hb hI hp hi hc
    obtain ⟨job, rd, a, tb, hj, ha, hcase⟩ := harvestJob_cases hc
    have hfa : BoundOK a := by
      rcases ha with rfl | ⟨i, _, _, _, _, ha⟩
      · exact hI
      · obtain ⟨_, _, rfl⟩ := removeNode_spec ha
        exact hI.erase
    rcases hcase with rfl | ⟨p0, hp0, hu, ⟨b, v, hr, hre⟩ | ⟨hr, rfl⟩⟩
    · obtain ⟨nc, rc, rb, _, _, e⟩ := harvestDiscard_eq (P := P) (takeSearch s j rd a tb) job.tag
      rw [e]
      exact hfa
    · obtain ⟨a1, e, gap, a2, hadd, hz, hze, hg, he, rfl⟩ := harvestReuse_cases hre
      obtain ⟨g, st, hl⟩ := updateLog_frame a1 v gap
      have h1 : BoundOK (updateLog a1 v gap) := by
        rw [hl]; exact (hfa.add hadd).of_eqs rfl rfl rfl rfl rfl
      exact h1.endPass he
    · exact hfa
  · intro s s' pc hb hI he hs hr _ gap
    obtain ⟨pts, noisy, o, done, rest, prev, u, calls, a, m, M, i, hp⟩ := restartPar_ok hr
    have ho := hp.install
    have hall := ho.all
    rw [hp.eq]
    dsimp only [PState.fates]
    generalize hT : ((initTable pe (decide (s.alg.mode = .noisy)) done).append prev).append u = T at *
    refine ⟨?_, ?_⟩
    · rw [ho.all, ho.fbest]
      intro w hw
      rcases List.mem_append.mp hw with hw | hw
      · exact (min_le_left _ _).trans (hI.1 w hw)
      · exact (min_le_right _ _).trans (WithTop.coe_le_coe.mpr (ho.least.2 w hw))
    · rw [ho.cur, ho.fmin, ho.fmax]
      intro w hw
      exact ⟨WithTop.coe_le_coe.mpr (ho.least.2 w hw), WithTop.coe_le_coe.mpr (ho.greatest.2 w hw)⟩
  · intro s a rd rb noisy tag _ hI hp hd _ hn
    exact hI.of_data hd
  · intro s s' job todo hb hI hp he hc
    obtain ⟨hn, _, a, gap, g, st, ha, _, rfl⟩ := closeJob_cases hc
    exact BoundOK.of_eqs (BoundOK.add hI ha) rfl rfl rfl rfl rfl
  · intro s pc rc gap _ hI _ _
    exact hI
  · intro s t _ hI _
    exact hI.of_data rfl
  · intro s _ hI _
    exact hI
  · intro s t _ hI _ _ hc
    obtain ⟨pts, noisy, o, rfl, hm, -⟩ := hc.frame
    exact hI.of_eqs rfl rfl rfl rfl rfl

/-- **C02** (parallel, any black box, any mode) For every schedule the tracked best value is never above a
recorded value, and the tracked minimum and maximum enclose the values of the current nodes. -/
theorem C02_parallel_tracked_bounds {o : O} {c : PCtl} {s : PState O} (h : PReach P env pe o c s) :
    (∀ v ∈ s.alg.all.val, s.alg.fbest ≤ (v : EVal)) ∧
    ∀ v ∈ s.alg.cur.val, s.alg.fmin ≤ (v : EVal) ∧ (v : EVal) ≤ s.alg.fmax := h.bound

/-- A two-phase parallel run with noisy and accurate records (`Demo.C06_parallel_example`). -/
example : ∃ s : PState ℕ, PReach Demo.PT Demo.envT Demo.peInt 0 (.running 0 100) s ∧
    s.alg.all.noisy = [true, true, false] ∧ ∀ v ∈ s.alg.all.val, s.alg.fbest ≤ (v : EVal) := by
  obtain ⟨s, h, -, h2, -⟩ := Demo.C06_parallel_example
  exact ⟨s, h, h2, (C02_parallel_tracked_bounds h).1⟩

/-- In noisy mode the tracked values are right, and the outstanding searches were started in noisy mode. -/
def BestNoisy (s : PState O) : Prop :=
  s.alg.mode = .noisy → BestOK s.alg ∧ ∀ x ∈ s.searches, x.noisy = true

theorem endPass_mode_back {a b : Alg O} (he : endPass P a = .ok b) (hm : b.mode = .noisy) :
    a.mode = .noisy := by
  obtain ⟨-, -, -, -, -, -, -, -, -, -, -, -, -, -, -, -, -, -, -, -, c, -⟩ := endPass_ctl he
  rcases c with c | c
  · rw [← c]; exact hm
  · rw [hm] at c; cases c

theorem PReach.bestNoisy {o : O} {c : PCtl} {s : PState O} (h : PReach P env pe o c s) :
    BestNoisy s := by
  refine h.inductB (I := BestNoisy) (fun _ => ⟨Or.inl (by simp [Alg.init]), by simp⟩) ?_ ?_ ?_ ?_ ?_ ?_ ?_
    ?_ ?_ ?_
  · intro s s' _ hI hc hm
    have e : s'.alg.mode = s.alg.mode := congrArg Data.mode hc.data
    obtain ⟨h1, h2⟩ := hI (e ▸ hm)
    exact ⟨h1.of_data hc.data, by rw [hc.searches]; exact h2⟩
  · intro s s' b j hb hI hp hc
    obtain ⟨job, d, hj, hd, hcase⟩ := collectJob_cases hc
    rcases hcase with ⟨_, tb, rfl⟩ | ⟨_, hn, _, a, ha, rfl⟩ |
      ⟨_, gap, a, a', rc, rb, hg, hda, _, _, _, ha, _, _, rfl⟩
    · exact hI
    · intro hm
      have hm' := endPass_mode_back ha hm
      obtain ⟨h1, h2⟩ := hI hm'
      exact ⟨BestOK.endPass ha h1, h2⟩
    · intro hm
      have hm' := endPass_mode_back ha hm
      have hadd := addJob_spec (pe := pe) (env := env) s.alg job
      have e1 : a.mode = (updateLog (addJob pe env s.alg job) (jobResult pe job).1 gap).mode :=
        congrArg Data.mode hda
      obtain ⟨g, st, hl⟩ := updateLog_frame (addJob pe env s.alg job) (jobResult pe job).1 gap
      have e2 : (updateLog (addJob pe env s.alg job) (jobResult pe job).1 gap).mode = s.alg.mode := by
        rw [hl]; exact hadd.rest.2.2.2.1
      obtain ⟨h1, h2⟩ := hI (e2 ▸ e1 ▸ hm')
      have h3 := BestOK.add hadd hb.wf.curA hb.wf.allA (getMinDistance_ne_nil hd) h1
      exact ⟨BestOK.endPass ha ((h3.log _ gap).of_data hda), h2⟩
  · intro s s' j res hb hI hp hi hc
    obtain ⟨job, rd, a, tb, hj, ha, hcase⟩ := harvestJob_cases hc
    have hmode : a.mode = s.alg.mode := by
      rcases ha with rfl | ⟨i, _, _, _, _, ha⟩
      · rfl
      · obtain ⟨_, _, rfl⟩ := removeNode_spec ha
        rfl
    have key : a.mode = .noisy → a = s.alg ∧ BestOK a ∧ ∀ x ∈ s.searches.eraseIdx j, x.noisy = true := by
      intro hm
      obtain ⟨h1, h2⟩ := hI (hmode ▸ hm)
      have ha' : a = s.alg := by
        rcases ha with h | ⟨_, _, h, _⟩
        · exact h
        · refine absurd (hi (Or.inr ?_)) h
          rw [hj, Option.map_some, h2 job (List.mem_of_getElem? hj)]
      exact ⟨ha', ha' ▸ h1, fun x hx => h2 x (List.mem_of_mem_eraseIdx hx)⟩
    rcases hcase with rfl | ⟨p0, hp0, hu, ⟨b, v, hr, hre⟩ | ⟨hr, rfl⟩⟩
    · obtain ⟨nc, rc, rb, _, _, e⟩ := harvestDiscard_eq (P := P) (takeSearch s j rd a tb) job.tag
      rw [e]
      intro hm
      exact (key hm).2
    · obtain ⟨a1, e, gap, a2, hadd, hz, _, hg, he, rfl⟩ := harvestReuse_cases hre
      intro hm
      have hm' := endPass_mode_back he hm
      obtain ⟨g, st, hl⟩ := updateLog_frame a1 v gap
      have e2 : (updateLog a1 v gap).mode = a.mode := by
        rw [hl]; exact hadd.rest.2.2.2.1
      obtain ⟨k1, k2, k3⟩ := key (e2 ▸ hm')
      obtain ⟨⟨d, hd, _⟩, _⟩ := harvestUsable_true hu
      subst k1
      have h1 := BestOK.add hadd hb.wf.curA hb.wf.allA (getMinDistance_ne_nil hd) k2
      exact ⟨BestOK.endPass he (h1.log v gap), k3⟩
    · intro hm
      exact (key hm).2
  · intro s s' pc hb hI he hs hr _ gap hm
    obtain ⟨pts, noisy, o, done, rest, prev, u, calls, a, m, M, i, hp⟩ := restartPar_ok hr
    have hss : s'.searches = [] := by rw [hp.eq]; exact hs
    rw [hp.eq] at hm
    have hm' : s.alg.mode = .noisy := by
      have := hp.install.mode
      exact this.symm.trans hm
    refine ⟨?_, by intro x hx; rw [show _ = s'.searches from rfl, hss] at hx; cases hx⟩
    rw [hp.eq]
    refine BestOK.install (a := { beginAlg s.alg o noisy pts.length with
      log := s.alg.log ++ calls
      evalcount := (beginAlg s.alg o noisy pts.length).evalcount + countAcc calls }) hb.wf.allA rfl
      ?_ hp.install
    rcases (hI hm').1 with ⟨h1, _, h3, _⟩ | ⟨f, b, M, _, h2, _, _, h5, _⟩
    · exact Or.inl ⟨h1, h3⟩
    · exact Or.inr ⟨b, h2, h5⟩
  · intro s a rd rb noisy tag _ hI hp hd _ hn hm
    have e : a.mode = s.alg.mode := congrArg Data.mode hd
    have hm' : s.alg.mode = .noisy := e ▸ hm
    obtain ⟨h1, h2⟩ := hI hm'
    refine ⟨h1.of_data hd, ?_⟩
    intro x hx
    rcases List.mem_append.mp hx with hx | hx
    · exact h2 x hx
    · rw [List.mem_singleton.mp hx]
      show noisy = true
      rw [hn, hm']; rfl
  · intro s s' job todo hb hI hp he hc
    obtain ⟨hn, hne, a, gap, g, st, ha, _, rfl⟩ := closeJob_cases hc
    intro hm
    obtain ⟨h1, h2⟩ := hI (ha.rest.2.2.2.1.symm.trans hm)
    have h3 : BestOK a := BestOK.add ha hb.wf.curA hb.wf.allA hne h1
    exact ⟨h3, h2⟩
  · intro s pc rc gap _ hI _ _ hm
    exact ⟨(hI hm).1, by simp [PState.fresh]⟩
  · exact fun s t _ hI _ => hI
  · intro s _ hI _ hm
    exact ⟨(hI hm).1, by simp [PState.lose, PState.fresh]⟩
  · intro s t _ hI _ _ hc
    obtain ⟨pts, noisy, o, rfl, -, -⟩ := hc.frame
    intro hm
    refine ⟨?_, by simp [PState.lose, PState.fresh]⟩
    rcases (hI hm).1 with ⟨h1, h2, h3, h4⟩ | h
    · exact Or.inl ⟨h1, h2, h3, by
        show s.alg.all.pos.length = 0
        rw [h1]; rfl⟩
    · exact Or.inr h

/-- **C02** (parallel, black boxes with `evaluate_noisy`) As long as the object is in noisy mode, the
tracked best value, minimum and maximum are right at any time, for any schedule. -/
theorem C02_parallel_tracked_best_noisy_mode {o : O} {c : PCtl} {s : PState O}
    (h : PReach P env pe o c s) (hm : s.alg.mode = .noisy) (hne : s.alg.all.pos ≠ []) :
    ∃ f b M : ℚ, s.alg.fmin = (f : EVal) ∧ s.alg.fbest = (b : EVal) ∧ s.alg.fmax = (M : EVal) ∧
      IsLeastAt s.alg.cur.val s.alg.fminIdx f ∧ IsLeastAt s.alg.all.val s.alg.fbestIdx b ∧
      IsGreatestOf s.alg.cur.val M := by
  rcases (h.bestNoisy hm).1 with ⟨h1, -⟩ | h
  · rw [h1] at hne; exact absurd rfl hne
  · exact h

/-- A two-phase parallel run whose calls have recorded two noisy values
(`Demo.C12_parallel_two_phase_example`). -/
example : ∃ s : PState ℕ, PReach Demo.PT6 Demo.envT2 Demo.peInt 0 (.running 0 100) s ∧
    s.alg.mode = .noisy ∧ s.alg.all.pos ≠ [] := by
  have h : (Demo.firstCall Demo.PT6 Demo.envT2 Demo.peInt 0 100 [0, 0] (Demo.ticks 2)).map
      (fun s => (decide (s.alg.mode = .noisy), decide (s.alg.all.pos ≠ []))) = some (true, true) := by
    decide +kernel
  obtain ⟨s, _, h1, h2⟩ := Demo.firstCall_exists (fun _ => trivial) h
  simp only [Prod.mk.injEq, decide_eq_true_eq] at h2
  exact ⟨s, h1, h2.1, h2.2⟩

/-- **C12** (parallel, any black box) If upper ends of error intervals are not negative: when a parallel
call returns in noisy mode, one of the declared reasons holds; the last one is that a record is within
`eps_opt` of the target. -/
theorem C12_parallel_stop_reason_noisy_mode {o : O} {s : PState O} (hz : 0 < P.epsZero)
    (hnn : ∀ id, 0 ≤ (pe.noisyRes id).2.2) {s0 : PState O} {pause : ℕ}
    (h : CallReach P env pe o s0 pause s) (hd : s.pc = .done) (hm : s.alg.mode = .noisy) :
    StopReason P env pe o s0 pause s := by
  rcases C12_parallel_stop_reason_two_phase hz hnn h hd with h1 | h1 | h1 | h1 | h1 | h1 | ⟨b, hb, ht⟩
  · exact .inl h1
  · exact .inr (.inl h1)
  · exact .inr (.inr (.inl h1))
  · exact .inr (.inr (.inr (.inl h1)))
  · exact .inr (.inr (.inr (.inr (.inl h1))))
  · exact .inr (.inr (.inr (.inr (.inr (.inl h1)))))
  · refine .inr (.inr (.inr (.inr (.inr (.inr ?_)))))
    rcases (h.reach.bestNoisy hm).1 with ⟨-, -, h3, -⟩ | ⟨f, b', M, -, h2, -, -, h5, -⟩
    · rw [hb] at h3; cases h3
    · rw [hb] at h2
      have : b = b' := WithTop.coe_injective h2
      subst this
      exact ⟨b, List.mem_of_getElem? h5.1, ht⟩

end Rbfopt
