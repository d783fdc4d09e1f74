import Verif.Lemmas.ParallelRec

/-! # Single-phase runs and best value in the parallel engine -/

namespace Rbfopt

variable {O : Type} {P : Params} {env : Env O} {pe : PEnv O}

/-- Induction over reachable states, with the bookkeeping invariant available. -/
theorem PReach.inductB {o : O} {I : PState O → Prop} {c : PCtl} {s : PState O}
    (h : PReach P env pe o c s)
    (h0 : I { alg := Alg.init P o })
    (hctrl : ∀ s s', PBook env pe s → I s → PCtrl pe s s' → I s')
    (hcollect : ∀ s s' b j, PBook env pe s → I s → s.pc = .evals b →
      collectJob P env pe s j = .ok s' → I { s' with pc := .evals b })
    (hharvest : ∀ s s' j res, PBook env pe s → I s → s.pc = .searches →
      (P.twoPhase = false ∨ s.searches[j]?.map SearchJob.noisy = some true → res.ind = none) →
      harvestJob P env pe s j res = .ok s' → I { s' with pc := .searches })
    (hrestart : ∀ s s' pc, PBook env pe s → I s → s.evals = [] → s.searches = [] →
      RestartPar P env pe s (.ok s') → (pc = .model ∨ pc = .top ∨ ∃ e, pc = .raised e) →
      ∀ gap, I { s' with pc := pc, gap := gap })
    (hsubmit : ∀ (s : PState O) a rd rb noisy tag, PBook env pe s → I s → s.pc = .model →
      a.data = s.alg.data → a.itercount = s.alg.itercount → noisy = decide (s.alg.mode = .noisy) →
      I { ({ s with alg := a, rankDef := rd, refBusy := rb } : PState O).submitSearch noisy tag with
          pc := .top })
    (hclose : ∀ s s' job todo, PBook env pe s → I s → s.pc = .closing (job :: todo) →
      s.evals = job :: todo → closeJob P env pe s job = .ok s' → I { s' with pc := .closing todo })
    (hfresh : ∀ (s : PState O) pc rc gap, PBook env pe s → I s → s.evals = [] →
      (pc = .top ∨ ∃ e, pc = .raised e) → I { s.fresh with pc := pc, refCount := rc, gap := gap })
    (hret : ∀ (s : PState O) t, PBook env pe s → I s → s.pc = .done →
      I { s with alg := { s.alg with elapsed := t } })
    (hload : ∀ (s : PState O), PBook env pe s → I s → (∀ e, s.pc ≠ .raised e) →
      I s.lose)
    (hcut : ∀ (s t : PState O), PBook env pe s → I s → s.evals = [] → s.searches = [] →
      RestartParCut P env pe s t → I t.lose) :
    I s := by
  suffices key : PBook env pe s ∧ I s from key.2
  exact h.induct (I := fun s => PBook env pe s ∧ I s)
    ⟨PReach.book (o := o) .init, h0⟩
    (fun s s' h hc => ⟨h.1.ctrl hc, hctrl s s' h.1 h.2 hc⟩)
    (fun s s' b j h hp hc => ⟨h.1.collect hp hc, hcollect s s' b j h.1 h.2 hp hc⟩)
    (fun s s' j res h hp hi hc => ⟨h.1.harvest hp hc, hharvest s s' j res h.1 h.2 hp hi hc⟩)
    (fun s s' pc h he hs hr hpc gap =>
      ⟨h.1.restart he hs hr hpc gap, hrestart s s' pc h.1 h.2 he hs hr hpc gap⟩)
    (fun s a rd rb noisy tag h hp hd hi hn =>
      ⟨h.1.submit hp hd, hsubmit s a rd rb noisy tag h.1 h.2 hp hd hi hn⟩)
    (fun s s' job todo h hp he hc => ⟨h.1.close he hc, hclose s s' job todo h.1 h.2 hp he hc⟩)
    (fun s pc rc gap h he hpc => ⟨h.1.fresh he hpc, hfresh s pc rc gap h.1 h.2 he hpc⟩)
    (fun s t h hp => ⟨h.1.ret, hret s t h.1 h.2 hp⟩)
    (fun s h hp => ⟨h.1.load, hload s h.1 h.2 hp⟩)
    (fun s t h he hs hc => ⟨h.1.cut he hc, hcut s t h.1 h.2 he hs hc⟩)

/-! ## Single-phase runs -/

/-- No noisy evaluation is ever submitted and no record is noisy. -/
structure PSingle (s : PState O) : Prop where
  mode : s.alg.mode = .accurate
  subs : ∀ x ∈ s.subs, x.2.1 = false
  searches : ∀ x ∈ s.searches, x.noisy = false
  all : s.alg.all.All (fun _ _ b e => b = false ∧ e = (0, 0))

theorem PSingle.job {s : PState O} (h : PSingle s) (hb : PBook env pe s) {x : EvalJob}
    (hx : x ∈ s.evals) : x.noisy = false := by
  obtain ⟨orig, h1, _⟩ := hb.jobs x hx
  exact h.subs _ (List.mem_of_getElem? h1)

theorem endPass_mode_accurate {a a' : Alg O} (h : endPass P a = .ok a') (hm : a.mode = .accurate) :
    a'.mode = .accurate := by
  obtain ⟨-, -, -, -, -, -, -, -, -, -, -, -, -, -, -, -, -, -, -, -, h1, -⟩ := endPass_ctl h
  rcases h1 with h1 | h1
  · rw [h1, hm]
  · exact h1

theorem PReach.single {o : O} {c : PCtl} {s : PState O} (h : PReach P env pe o c s)
    (hP : P.twoPhase = false) : PSingle s := by
  refine h.inductB (I := PSingle) ?_ ?_ ?_ ?_ ?_ ?_ ?_ ?_ ?_ ?_ ?_
  · exact ⟨by simp [Alg.init, hP], by simp, by simp, by simp [Alg.init, Table.All]⟩
  · intro s s' _ hI hc
    refine ⟨?_, ?_, ?_, ?_⟩
    · exact (congrArg Data.mode hc.data).trans hI.mode
    · rw [hc.subs]; exact hI.subs
    · rw [hc.searches]; exact hI.searches
    · have e : s'.alg.all = s.alg.all := congrArg Data.all hc.data
      rw [e]; exact hI.all
  · intro s s' b j hb hI hp hc
    obtain ⟨job, d, hj, hd, hcase⟩ := collectJob_cases hc
    have hjn := hI.job hb (List.mem_of_getElem? hj)
    rcases hcase with ⟨_, tb, rfl⟩ | ⟨_, hn, _, a, ha, rfl⟩ |
      ⟨_, gap, a, a', rc, rb, hg, hda, _, _, _, ha, _, _, rfl⟩
    · exact ⟨hI.mode, hI.subs, hI.searches, hI.all⟩
    · rw [hjn] at hn; cases hn
    · have hadd := addJob_spec (pe := pe) (env := env) s.alg job
      obtain ⟨g, st, hl⟩ := updateLog_frame (addJob pe env s.alg job) (jobResult pe job).1 gap
      rw [hl] at hda
      have d1 : a.all = (addJob pe env s.alg job).all := congrArg Data.all hda
      have d2 : a.mode = (addJob pe env s.alg job).mode := congrArg Data.mode hda
      obtain ⟨-, -, -, -, -, -, -, -, c1, -⟩ := endPass_ctl ha
      refine ⟨?_, hI.subs, hI.searches, ?_⟩
      · exact endPass_mode_accurate ha (d2.trans (hadd.rest.2.2.2.1.trans hI.mode))
      · refine Table.All.of_eq (c1.trans (d1.trans hadd.all)) (Table.All.snoc hb.wf.allA hI.all ?_)
        refine ⟨hjn, ?_⟩
        simp [jobResult, hjn]
  · intro s s' j res hb hI hp hi hc
    obtain ⟨job, rd, a, tb, hj, ha, hcase⟩ := harvestJob_cases hc
    have ha' : a = s.alg := by
      rcases ha with h | ⟨_, _, h, _⟩
      · exact h
      · exact absurd (hi (Or.inl hP)) h
    subst ha'
    have hjn : job.noisy = false := hI.searches _ (List.mem_of_getElem? hj)
    have hse : ∀ x ∈ s.searches.eraseIdx j, x.noisy = false :=
      fun x hx => hI.searches x (List.mem_of_mem_eraseIdx hx)
    rcases hcase with rfl | ⟨p0, hp0, hu, ⟨b, v, hr, hre⟩ | ⟨hr, rfl⟩⟩
    · obtain ⟨nc, rc, rb, _, _, e⟩ := harvestDiscard_eq (P := P) (takeSearch s j rd s.alg tb) job.tag
      rw [e]
      exact ⟨hI.mode, hI.subs, hse, hI.all⟩
    · obtain ⟨a1, e, gap, a2, hadd, hz, _, hg, he, rfl⟩ := harvestReuse_cases hre
      obtain ⟨-, -, -, -, -, -, -, -, c1, -⟩ := endPass_ctl he
      obtain ⟨g, st, hl⟩ := updateLog_frame a1 v gap
      rw [hl] at c1 he
      obtain ⟨hb', i, q, e', _, g1, g2, g3, g4, g5⟩ := reusePar_spec hb.wf.allA hr
      have hbf := (hI.all i q v b e' g1 g2 g3 g4).1
      refine ⟨?_, hI.subs, hse, ?_⟩
      · exact endPass_mode_accurate he (hadd.rest.2.2.2.1.trans hI.mode)
      · exact Table.All.of_eq (c1.trans hadd.all)
          (Table.All.snoc hb.wf.allA hI.all ⟨hbf, hz.1 hbf⟩)
    · refine ⟨hI.mode, ?_, hse, hI.all⟩
      intro x hx
      simp only [harvestSubmit, PState.submitEval, PState.pushTemp, takeSearch, List.mem_append,
        List.mem_singleton] at hx
      rcases hx with hx | rfl
      · exact hI.subs x hx
      · exact hjn
  · intro s s' pc hb hI he hs hr _ gap
    obtain ⟨pts, noisy, o, done, rest, prev, u, calls, a, m, M, i, hp⟩ := restartPar_ok hr
    have ho := hp.install
    have hall : a.all = s.alg.all.append
      (((initTable pe (decide (s.alg.mode = .noisy)) done).append prev).append u) := ho.all
    have hmode : a.mode = s.alg.mode := ho.mode
    have hnf : noisy = false := by
      cases noisy
      · rfl
      · have := hp.noisyMode rfl
        rw [hI.mode] at this; cases this
    rw [hp.eq]
    refine ⟨hmode.trans hI.mode, ?_, by simp [PState.fates, hs], ?_⟩
    · intro x hx
      simp only [PState.fates, List.mem_append, List.mem_map] at hx
      rcases hx with hx | ⟨p, _, rfl⟩
      · exact hI.subs x hx
      · exact hnf
    · refine Table.All.of_eq hall (Table.All.append hb.wf.allA hI.all
        (Table.All.append ((initTable_aligned _ _).append hp.prevA)
        (Table.All.append (initTable_aligned _ _) ?_ ?_) ?_))
      · intro k p v b e g1 g2 g3 g4
        simp only [initTable, List.getElem?_map, Option.map_eq_some_iff] at g1 g2 g3 g4
        obtain ⟨x, hx, rfl⟩ := g1
        rw [hx] at g2 g3 g4
        simp only [Option.some.injEq, exists_eq_left'] at g2 g3 g4
        subst g2 g3 g4
        obtain ⟨k1, k2, k3, k4⟩ := initJobs_get
          (hp.perm.mem_iff.mp (List.mem_append_left rest (List.mem_of_getElem? hx)))
        refine ⟨by simp [hI.mode], ?_⟩
        simp [jobResult, k3, hnf]
      · exact hp.prevAll.mono (fun p v b e hh => hI.all.has hh.1)
      · refine hp.uAll.mono ?_
        rintro p v b e ⟨k, k1, k2, k3, _⟩
        exact ⟨k2, k3⟩
  · intro s a rd rb noisy tag _ hI hp hd _ hn
    refine ⟨(congrArg Data.mode hd).trans hI.mode, hI.subs, ?_, ?_⟩
    · intro x hx
      simp only [PState.submitSearch, List.mem_append, List.mem_singleton] at hx
      rcases hx with hx | rfl
      · exact hI.searches x hx
      · rw [hn]; simp [hI.mode]
    · exact Table.All.of_eq (congrArg Data.all hd) hI.all
  · intro s s' job todo hb hI hp he hc
    obtain ⟨hn, _, a, gap, g, st, ha, _, rfl⟩ := closeJob_cases hc
    refine ⟨ha.rest.2.2.2.1.trans hI.mode, hI.subs, hI.searches, ?_⟩
    exact Table.All.of_eq ha.all (Table.All.snoc hb.wf.allA hI.all ⟨rfl, rfl⟩)
  · intro s pc rc gap _ hI _ _
    exact ⟨hI.mode, hI.subs, by simp [PState.fresh], hI.all⟩
  · intro s t _ hI _
    exact ⟨hI.mode, hI.subs, hI.searches, hI.all⟩
  · intro s _ hI _
    exact ⟨hI.mode, hI.subs, by simp [PState.lose, PState.fresh], hI.all⟩
  · intro s t _ hI _ _ hc
    obtain ⟨pts, noisy, o, rfl, hm, -⟩ := hc.frame
    refine ⟨hI.mode, ?_, by simp [PState.lose, PState.fresh], hI.all⟩
    intro x hx
    rcases List.mem_append.mp hx with hx | hx
    · exact hI.subs x hx
    · obtain ⟨p, -, rfl⟩ := List.mem_map.mp hx
      cases hn : noisy
      · rfl
      · exact absurd (hm hn) (by rw [hI.mode]; simp)

/-! ## Best value -/

theorem BestOK.of_data {s t : Alg O} (h : BestOK s) (e : t.data = s.data) : BestOK t := by
  have e1 : t.all = s.all := congrArg Data.all e
  have e2 : t.cur = s.cur := congrArg Data.cur e
  have e3 : t.fmin = s.fmin := congrArg Data.fmin e
  have e4 : t.fminIdx = s.fminIdx := congrArg Data.fminIdx e
  have e5 : t.fbest = s.fbest := congrArg Data.fbest e
  have e6 : t.fbestIdx = s.fbestIdx := congrArg Data.fbestIdx e
  have e7 : t.fmax = s.fmax := congrArg Data.fmax e
  have e8 : t.nAtRestart = s.nAtRestart := congrArg Data.nAtRestart e
  unfold BestOK; rw [e1, e2, e3, e4, e5, e6, e7, e8]; exact h

theorem BestOK.endPass {a a' : Alg O} (h : endPass P a = .ok a') (hb : BestOK a) : BestOK a' := by
  unfold Rbfopt.endPass at h
  dsimp only at h
  split at h
  · cases h
  · cases h
    have e := stallingUpdate_data P { a with itercount := a.itercount + 1 }
    have h1 : BestOK (stallingUpdate P { a with itercount := a.itercount + 1 }) :=
      hb.of_data (e.trans rfl)
    unfold phaseUpdate
    split
    · exact h1
    · exact h1

theorem BestOK.install {a a' : Alg O} {t : Table} {m M : ℚ} {i : ℕ} (hall : a.all.Aligned)
    (hn : a.nAtRestart = a.all.pos.length)
    (h : (a.all = {} ∧ a.fbest = ⊤) ∨ ∃ b : ℚ, a.fbest = (b : EVal) ∧ IsLeastAt a.all.val a.fbestIdx b)
    (ho : InstallOut P env a a' t m M i) : BestOK a' := by
  right
  have hcv : a'.cur.val = t.val := by rw [ho.cur]
  rcases h with ⟨h1, h3⟩ | ⟨b, h2, h5⟩
  · refine ⟨m, m, M, ho.fmin, by rw [ho.fbest, h3]; simp, ho.fmax, ?_, ?_, ?_⟩
    · rw [hcv, ho.fminIdx]; exact ho.least
    · rw [ho.all, ho.fbestIdx, hn, h1, h3]
      simp only [Table.append, WithTop.coe_lt_top, if_true, List.nil_append, List.length_nil,
        Nat.add_zero]
      exact ho.least
    · rw [hcv]; exact ho.greatest
  · refine ⟨m, min b m, M, ho.fmin, by rw [ho.fbest, h2]; rfl, ho.fmax, ?_, ?_, ?_⟩
    · rw [hcv, ho.fminIdx]; exact ho.least
    · rw [ho.all, ho.fbestIdx, hn, h2]
      simp only [Table.append, WithTop.coe_lt_coe]
      split
      · rename_i hlt
        rw [min_eq_right hlt.le, ← hall.1]
        exact ho.least.append_left (fun w hw => hlt.le.trans (h5.2 w hw))
      · rename_i hlt
        rw [min_eq_left (not_lt.mp hlt)]
        exact h5.append_right (fun w hw => (not_lt.mp hlt).trans (ho.least.2 w hw))
    · rw [hcv]; exact ho.greatest

theorem BestOK.log {a : Alg O} (h : BestOK a) (v : ℚ) (gap : EVal) : BestOK (updateLog a v gap) := by
  obtain ⟨g, st, e⟩ := updateLog_frame a v gap
  rw [e]; exact h

theorem getMinDistance_ne_nil {dist : Pt → Pt → ℚ} {p : Pt} {l : List Pt} {d : ℚ}
    (h : getMinDistance dist p l = some d) : l ≠ [] := by
  rintro rfl
  simp [getMinDistance, argminVal] at h

theorem PReach.best {o : O} {c : PCtl} {s : PState O} (h : PReach P env pe o c s)
    (hP : P.twoPhase = false) : BestOK s.alg := by
  refine h.inductB (I := fun s => BestOK s.alg) (Or.inl (by simp [Alg.init])) ?_ ?_ ?_ ?_ ?_ ?_ ?_
    ?_ ?_ ?_
  · exact fun s s' _ hI hc => hI.of_data hc.data
  · intro s s' b j hb hI hp hc
    obtain ⟨job, d, hj, hd, hcase⟩ := collectJob_cases hc
    rcases hcase with ⟨_, tb, rfl⟩ | ⟨_, hn, _, a, ha, rfl⟩ |
      ⟨_, gap, a, a', rc, rb, hg, hda, _, _, _, ha, _, _, rfl⟩
    · exact hI
    · exact BestOK.endPass ha hI
    · have hadd := addJob_spec (pe := pe) (env := env) s.alg job
      have h1 := BestOK.add hadd hb.wf.curA hb.wf.allA (getMinDistance_ne_nil hd) hI
      exact BestOK.endPass ha ((h1.log _ gap).of_data hda)
  · intro s s' j res hb hI hp hi hc
    obtain ⟨job, rd, a, tb, hj, ha, hcase⟩ := harvestJob_cases hc
    have ha' : a = s.alg := by
      rcases ha with h | ⟨_, _, h, _⟩
      · exact h
      · exact absurd (hi (Or.inl hP)) h
    subst ha'
    rcases hcase with rfl | ⟨p0, hp0, hu, ⟨b, v, hr, hre⟩ | ⟨hr, rfl⟩⟩
    · obtain ⟨nc, rc, rb, _, _, e⟩ := harvestDiscard_eq (P := P) (takeSearch s j rd s.alg tb) job.tag
      rw [e]
      exact hI
    · obtain ⟨a1, e, gap, a2, hadd, hz, _, hg, he, rfl⟩ := harvestReuse_cases hre
      obtain ⟨⟨d, hd, _⟩, _⟩ := harvestUsable_true hu
      have h1 := BestOK.add hadd hb.wf.curA hb.wf.allA (getMinDistance_ne_nil hd) hI
      exact BestOK.endPass he (h1.log v gap)
    · exact hI
  · intro s s' pc hb hI he hs hr _ gap
    obtain ⟨pts, noisy, o, done, rest, prev, u, calls, a, m, M, i, hp⟩ := restartPar_ok hr
    rw [hp.eq]
    refine BestOK.install (a := { beginAlg s.alg o noisy pts.length with
      log := s.alg.log ++ calls
      evalcount := (beginAlg s.alg o noisy pts.length).evalcount + countAcc calls }) hb.wf.allA rfl
      ?_ hp.install
    rcases hI with ⟨h1, _, h3, _⟩ | ⟨f, b, M, _, h2, _, _, h5, _⟩
    · exact Or.inl ⟨h1, h3⟩
    · exact Or.inr ⟨b, h2, h5⟩
  · exact fun s a _ _ _ _ _ hI _ hd _ _ => hI.of_data hd
  · intro s s' job todo hb hI hp he hc
    obtain ⟨hn, hne, a, gap, g, st, ha, _, rfl⟩ := closeJob_cases hc
    have h1 : BestOK a := BestOK.add ha hb.wf.curA hb.wf.allA hne hI
    exact h1
  · exact fun s pc rc gap _ hI _ _ => hI
  · exact fun s t _ hI _ => hI
  · exact fun s _ hI _ => hI
  · intro s t _ hI _ _ hc
    obtain ⟨pts, noisy, o, rfl, hm, -⟩ := hc.frame
    rcases hI with ⟨h1, h2, h3, h4⟩ | h
    · exact Or.inl ⟨h1, h2, h3, by
        show s.alg.all.pos.length = 0
        rw [h1]; rfl⟩
    · exact Or.inr h

end Rbfopt
