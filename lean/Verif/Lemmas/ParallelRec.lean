import Verif.Lemmas.ParallelBook

/-! # Counters, provenance and best value in the parallel engine -/

namespace Rbfopt

variable {O : Type} {P : Params} {env : Env O} {pe : PEnv O}

/-! ## Provenance -/

theorem PSource.mono {s s' : PState O} {p : Pt} {v : ℚ} {b : Bool} (h : PSource P env pe s p v b)
    (h1 : ∀ x ∈ s.hist, x ∈ s'.hist) (h2 : ∃ t, s'.subs = s.subs ++ t)
    (h3 : ∀ x ∈ s.alg.log, x ∈ s'.alg.log) :
    PSource P env pe s' p v b := by
  obtain ⟨t, ht⟩ := h2
  have hret : ∀ {id x nb tag v e}, s.Returned pe id x nb tag v e → s'.Returned pe id x nb tag v e := by
    rintro id x nb tag v e ⟨r1, r2⟩
    refine ⟨?_, r2⟩
    rw [ht, List.getElem?_append_left (List.getElem?_eq_some_iff.mp r1).1]
    exact r1
  induction h with
  | job a1 a2 a3 => exact .job (h1 _ a1) (hret a2) a3
  | late a1 a2 => exact .late (h1 _ a1) (hret a2)
  | userEval a1 a2 => exact .userEval a1 (h3 _ a2)
  | userVal i a1 a2 => exact .userVal i a1 a2
  | near _ a2 ih => exact .near ih a2

/-- Counters and provenance. -/
structure PRec (P : Params) (env : Env O) (pe : PEnv O) (s : PState O) : Prop where
  acc : s.alg.evalcount = s.numSubs false + countAcc s.alg.log
  noisy : s.alg.noisyEvalcount = s.numSubs true
  logN : countNoisy s.alg.log = 0
  src : s.alg.all.All (fun p v b _ => PSource P env pe s p v b)

/-- The invariant only depends on these parts. -/
theorem PRec.congr {s s' : PState O} (h : PRec P env pe s)
    (e1 : s'.alg.evalcount = s.alg.evalcount) (e2 : s'.alg.noisyEvalcount = s.alg.noisyEvalcount)
    (e3 : s'.alg.log = s.alg.log) (e4 : s'.alg.all = s.alg.all) (e5 : s'.subs = s.subs)
    (e6 : ∀ x ∈ s.hist, x ∈ s'.hist) : PRec P env pe s' := by
  refine ⟨?_, ?_, by rw [e3]; exact h.logN, ?_⟩
  · rw [e1, e3, h.acc]; unfold PState.numSubs; rw [e5]
  · rw [e2, h.noisy]; unfold PState.numSubs; rw [e5]
  · rw [e4]
    exact h.src.mono (fun p v b e hp => hp.mono e6 ⟨[], by simp [e5]⟩ (by rw [e3]; simp))

theorem Table.All.snoc {R : Pt → ℚ → Bool → ℚ × ℚ → Prop} {t : Table} {p : Pt} {v : ℚ} {b : Bool}
    {e : ℚ × ℚ} (ha : t.Aligned) (h : t.All R) (h1 : R p v b e) :
    (t.append { pos := [p], val := [v], noisy := [b], err := [e] }).All R := by
  refine Table.All.append ha h ?_
  intro k p' v' b' e' g1 g2 g3 g4
  cases k with
  | succ k => simp at g1
  | zero =>
    simp only [List.getElem?_cons_zero, Option.some.injEq] at g1 g2 g3 g4
    subst g1 g2 g3 g4
    exact h1

theorem Table.All.of_eq {R : Pt → ℚ → Bool → ℚ × ℚ → Prop} {t t' : Table} (e : t = t')
    (h : t'.All R) : t.All R := e ▸ h

/-- The result of a job, as a returned value. -/
theorem PBook.returned {s : PState O} (hb : PBook env pe s) {job : EvalJob} (hj : job ∈ s.evals) :
    (s.Returned pe job.id (env.toOrig job.pt) job.noisy job.tag (jobResult pe job).1
        (jobResult pe job).2) ∨
    (job.tag = .init ∧ s.Returned pe job.id job.pt job.noisy .init (jobResult pe job).1
        (jobResult pe job).2) := by
  obtain ⟨orig, h1, h2⟩ := hb.jobs job hj
  have h3 : if job.noisy then pe.noisyRes job.id = ((jobResult pe job).1, (jobResult pe job).2.1,
      (jobResult pe job).2.2) else pe.acc job.id = (jobResult pe job).1 ∧
      (jobResult pe job).2 = (0, 0) := by
    unfold jobResult
    cases job.noisy <;> simp
  rcases h2 with rfl | ⟨ht, rfl⟩
  · exact Or.inl ⟨h1, h3⟩
  · rw [ht] at h1
    exact Or.inr ⟨ht, h1, h3⟩

/-- Source of the value of a recorded job. -/
theorem PBook.job_source {s s' : PState O} (hb : PBook env pe s) {job : EvalJob}
    (hj : job ∈ s.evals) (h1 : (job.id, Fate.recorded) ∈ s'.hist) (h2 : s'.subs = s.subs) :
    PSource P env pe s' (env.toOrig job.pt) (jobResult pe job).1 job.noisy := by
  rcases hb.returned hj with h | ⟨_, h⟩
  · exact .job h1 (by unfold PState.Returned at h ⊢; rw [h2]; exact h) (fun h => h)
  · exact .late h1 (by unfold PState.Returned at h ⊢; rw [h2]; exact h)

theorem PRec.collect {s s' : PState O} {b j : ℕ} (hb : PBook env pe s) (h : PRec P env pe s)
    (hc : collectJob P env pe s j = .ok s') : PRec P env pe { s' with pc := .evals b } := by
  obtain ⟨job, d, hj, hd, hcase⟩ := collectJob_cases hc
  have hmem : job ∈ s.evals := List.mem_of_getElem? hj
  rcases hcase with ⟨_, tb, rfl⟩ | ⟨_, hn, _, a, ha, rfl⟩ |
    ⟨_, gap, a, a', rc, rb, hg, hda, _, _, _, ha, _, _, rfl⟩
  · exact h.congr rfl rfl rfl rfl rfl (fun x hx => List.mem_append_left _ hx)
  · obtain ⟨-, -, -, -, -, -, -, -, c1, c2, c3, c4, -⟩ := endPass_ctl ha
    refine ⟨?_, ?_, ?_, ?_⟩
    · simp only [collectRepeat, takeJob, PState.popTemp, PState.submitEval, PState.pushTemp,
        PState.fate, PState.numSubs, List.countP_append]
      rw [c3, c2, h.acc]
      simp only [PState.numSubs]
      simp
      omega
    · simp only [collectRepeat, takeJob, PState.popTemp, PState.submitEval, PState.pushTemp,
        PState.fate, PState.numSubs, List.countP_append]
      rw [c4, h.noisy]
      simp [PState.numSubs]
    · rw [c2]; exact h.logN
    · dsimp only
      rw [c1]
      refine h.src.mono (fun p v b e hp => hp.mono ?_ ?_ ?_)
      · intro x hx
        simp only [collectRepeat, takeJob, PState.popTemp, PState.submitEval, PState.pushTemp,
          PState.fate]
        exact List.mem_append_left _ hx
      · exact ⟨_, rfl⟩
      · rw [c2]; exact fun x hx => hx
  · obtain ⟨-, -, -, -, -, -, -, -, c1, c2, c3, c4, -⟩ := endPass_ctl ha
    have hadd := addJob_spec (pe := pe) (env := env) s.alg job
    obtain ⟨g, st, hl⟩ := updateLog_frame (addJob pe env s.alg job) (jobResult pe job).1 gap
    rw [hl] at hda
    have d1 : a.all = (addJob pe env s.alg job).all := congrArg Data.all hda
    have d2 : a.log = (addJob pe env s.alg job).log := congrArg Data.log hda
    have d3 : a.evalcount = (addJob pe env s.alg job).evalcount := congrArg Data.evalcount hda
    have d4 : a.noisyEvalcount = (addJob pe env s.alg job).noisyEvalcount :=
      congrArg Data.noisyEvalcount hda
    obtain ⟨r1, r2, r3, -⟩ := hadd.rest
    refine ⟨?_, ?_, ?_, ?_⟩
    · show a'.evalcount = _ + countAcc a'.log
      rw [c3, c2, d3, d2, r1, r2]; exact h.acc
    · show a'.noisyEvalcount = _
      rw [c4, d4, r3]; exact h.noisy
    · show countNoisy a'.log = 0
      rw [c2, d2, r1]; exact h.logN
    · show a'.all.All _
      rw [c1, d1, hadd.all]
      refine Table.All.snoc hb.wf.allA ?_ ?_
      · refine h.src.mono (fun p v b e hp => hp.mono ?_ ⟨[], by simp [takeJob, PState.popTemp, PState.fate]⟩ ?_)
        · intro x hx; exact List.mem_append_left _ hx
        · show ∀ x ∈ s.alg.log, x ∈ a'.log
          rw [c2, d2, r1]; exact fun x hx => hx
      · exact hb.job_source hmem (List.mem_append_right _ (by simp)) rfl

theorem PRec.removed {s : PState O} {a : Alg O} {res : SearchRes} (h : PRec P env pe s)
    (ha : a = s.alg ∨ ∃ (i : ℕ) (p : Pt), res.ind ≠ none ∧ res.next = some p ∧
        s.alg.cur.pos[i]? = some p ∧ removeNode s.alg i s.alg.nAtRestart = .ok a)
    (j : ℕ) (rd : ℚ × ℕ) (tb : List Pt) : PRec P env pe (takeSearch s j rd a tb) := by
  rcases ha with rfl | ⟨i, p, _, _, _, hr⟩
  · exact h.congr rfl rfl rfl rfl rfl (fun x hx => hx)
  · obtain ⟨_, _, rfl⟩ := removeNode_spec hr
    refine ⟨h.acc, h.noisy, h.logN, ?_⟩
    refine Table.All.mono (Table.All.eraseIdx h.src _) (fun p v b e hp => hp.mono (fun x hx => hx)
      ⟨[], by simp [takeSearch]⟩ (fun x hx => hx))

theorem PRec.harvest {s s' : PState O} {j : ℕ} {res : SearchRes} (hb : PBook env pe s)
    (h : PRec P env pe s) (hc : harvestJob P env pe s j res = .ok s') :
    PRec P env pe { s' with pc := .searches } := by
  obtain ⟨job, rd, a, tb, hj, ha, hcase⟩ := harvestJob_cases hc
  have w := hb.wf.removed ha
  have h1 := h.removed ha j rd tb
  rcases hcase with rfl | ⟨p0, hp0, hu, ⟨b, v, hr, hre⟩ | ⟨hr, rfl⟩⟩
  · obtain ⟨nc, rc, rb, _, _, e⟩ := harvestDiscard_eq (P := P) (takeSearch s j rd a tb) job.tag
    rw [e]
    exact h1.congr rfl rfl rfl rfl rfl (fun x hx => hx)
  · obtain ⟨a1, e, gap, a2, hadd, _, _, hg, he, rfl⟩ := harvestReuse_cases hre
    obtain ⟨-, -, -, -, -, -, -, -, c1, c2, c3, c4, -⟩ := endPass_ctl he
    obtain ⟨g, st, hl⟩ := updateLog_frame a1 v gap
    rw [hl] at c1 c2 c3 c4
    obtain ⟨r1, r2, r3, -⟩ := hadd.rest
    obtain ⟨_, i, q, e', _, g1, g2, g3, g4, g5⟩ := reusePar_spec w.allA hr
    refine ⟨?_, ?_, ?_, ?_⟩
    · show a2.evalcount = _ + countAcc a2.log
      rw [c3, c2, r1, r2]; exact h1.acc
    · show a2.noisyEvalcount = _
      rw [c4, r3]; exact h1.noisy
    · show countNoisy a2.log = 0
      rw [c2, r1]; exact h1.logN
    · show a2.all.All _
      rw [c1]
      show a1.all.All _
      rw [hadd.all]
      have hm : ∀ {p v b}, PSource P env pe (takeSearch s j rd a tb) p v b →
          PSource P env pe { takeSearch s j rd a tb with alg := a2, gap := gap, pc := .searches }
            p v b := by
        intro p v b hp
        refine hp.mono (fun x hx => hx) ⟨[], by simp⟩ ?_
        show ∀ x ∈ _, x ∈ a2.log
        rw [c2, r1]; exact fun x hx => hx
      refine Table.All.snoc w.allA (h1.src.mono (fun p v b e hp => hm hp)) ?_
      exact .near (hm (h1.src i q v b e' g1 g2 g3 g4)) g5
  · refine ⟨?_, ?_, h1.logN, ?_⟩
    · have := h1.acc
      simp only [takeSearch, PState.numSubs] at this
      simp only [harvestSubmit, PState.submitEval, PState.pushTemp, takeSearch, PState.numSubs,
        List.countP_append, this]
      cases job.noisy <;> simp [Nat.add_right_comm]
    · have := h1.noisy
      simp only [takeSearch, PState.numSubs] at this
      simp only [harvestSubmit, PState.submitEval, PState.pushTemp, takeSearch, PState.numSubs,
        List.countP_append, this]
      cases job.noisy <;> simp
    · refine h1.src.mono (fun p v b e hp => hp.mono (fun x hx => hx) ?_ (fun x hx => hx))
      exact ⟨_, rfl⟩

theorem PRec.restart {s s' : PState O} {pc : PC} (hb : PBook env pe s) (h : PRec P env pe s)
    (hr : RestartPar P env pe s (.ok s')) (gap : EVal) :
    PRec P env pe { s' with pc := pc, gap := gap } := by
  obtain ⟨pts, noisy, o, done, rest, prev, u, calls, a, m, M, i, hp⟩ := restartPar_ok hr
  have ho := hp.install
  have hlog : a.log = s.alg.log ++ calls := ho.log
  have hev : a.evalcount = s.alg.evalcount + (if noisy then 0 else pts.length) + countAcc calls :=
    ho.ev
  have hnev : a.noisyEvalcount = s.alg.noisyEvalcount + (if noisy then pts.length else 0) := ho.nev
  have hall : a.all = s.alg.all.append
    (((initTable pe (decide (s.alg.mode = .noisy)) done).append prev).append u) := ho.all
  have hcnt : ∀ b, (pts.map (fun p => (p, noisy, Tag.init))).countP (fun x => x.2.1 == b) =
      if noisy = b then pts.length else 0 := by
    intro b
    rw [List.countP_map]
    by_cases hnb : noisy = b
    · rw [if_pos hnb]
      rw [List.countP_eq_length]
      intro x _; simp [hnb]
    · rw [if_neg hnb]
      rw [List.countP_eq_zero]
      intro x _; simpa using hnb
  rw [hp.eq]
  refine ⟨?_, ?_, ?_, ?_⟩
  · show a.evalcount = PState.numSubs _ false + countAcc a.log
    rw [hlog, hev, h.acc]
    simp only [PState.numSubs, PState.fates, List.countP_append, hcnt]
    unfold countAcc
    rw [List.countP_append]
    cases noisy <;> simp <;> ring
  · show a.noisyEvalcount = _
    rw [hnev, h.noisy]
    simp only [PState.numSubs, PState.fates, List.countP_append, hcnt]
  · show countNoisy a.log = 0
    rw [hlog]
    have h1 := h.logN
    have h2 := hp.callsN
    unfold countNoisy at *
    rw [List.countP_append, h1, h2]
  · show a.all.All _
    rw [hall]
    have hm : ∀ {p v b}, PSource P env pe s p v b → PSource P env pe
        { ({ s with
            alg := a, evals := rest, tPos := rest.map (fun x => x.pt)
            tVal := rest.map (fun x => pe.tempVal a x.pt), tNoisy := rest.map (fun x => x.noisy)
            tabu := [], left := rest.length, cut := false
            subs := s.subs ++ pts.map (fun p => (p, noisy, Tag.init)) } : PState O).fates done with
          pc := pc, gap := gap } p v b := by
      intro p v b hs
      refine hs.mono (fun x hx => List.mem_append_left _ hx) ⟨_, rfl⟩ ?_
      show ∀ x ∈ s.alg.log, x ∈ a.log
      rw [hlog]; exact fun x hx => List.mem_append_left _ hx
    refine Table.All.append hb.wf.allA (h.src.mono (fun p v b e hs => hm hs)) ?_
    refine Table.All.append ((initTable_aligned _ _).append hp.prevA)
      (Table.All.append (initTable_aligned _ _) ?_ ?_) ?_
    · intro k p v b e g1 g2 g3 g4
      simp only [initTable, List.getElem?_map, Option.map_eq_some_iff] at g1 g2 g3 g4
      obtain ⟨x, hx, rfl⟩ := g1
      rw [hx] at g2 g3 g4
      simp only [Option.some.injEq, exists_eq_left'] at g2 g3 g4
      subst g2 g3 g4
      have hxd : x ∈ done := List.mem_of_getElem? hx
      obtain ⟨k1, k2, k3, k4⟩ := initJobs_get
        (hp.perm.mem_iff.mp (List.mem_append_left rest hxd))
      refine .job (id := x.id) (nb := x.noisy) (tag := .init) (e := (jobResult pe x).2) ?_ ⟨?_, ?_⟩ ?_
      · exact List.mem_append_right _ (List.mem_map.mpr ⟨x, hxd, rfl⟩)
      · simp only [PState.fates]
        rw [List.getElem?_append_right k1, List.getElem?_map, k2, k3]
        rfl
      · unfold jobResult; cases x.noisy <;> simp
      · intro hn
        rw [k3] at hn
        simpa using hp.noisyMode hn
    · exact hp.prevAll.mono (fun p v b e hh => hm (h.src.has hh.1))
    · refine hp.uAll.mono ?_
      rintro p v b e ⟨k, k1, rfl, rfl, k2 | k2⟩
      · exact .userEval (List.mem_of_getElem? k1) (by
          show _ ∈ a.log
          rw [hlog]; exact List.mem_append_right _ k2)
      · exact .userVal k k1 k2

theorem PRec.close {s s' : PState O} {job : EvalJob} {todo : List EvalJob} (hb : PBook env pe s)
    (h : PRec P env pe s) (he : s.evals = job :: todo) (hc : closeJob P env pe s job = .ok s') :
    PRec P env pe { s' with pc := .closing todo } := by
  obtain ⟨hn, _, a, gap, g, st, ha, _, rfl⟩ := closeJob_cases hc
  obtain ⟨r1, r2, r3, -⟩ := ha.rest
  have hv : pe.acc job.id = (jobResult pe job).1 := by simp [jobResult, hn]
  refine ⟨?_, ?_, ?_, ?_⟩
  · show a.evalcount = _ + countAcc a.log
    rw [r1, r2]; exact h.acc
  · show a.noisyEvalcount = _
    rw [r3]; exact h.noisy
  · show countNoisy a.log = 0
    rw [r1]; exact h.logN
  · show a.all.All _
    refine Table.All.of_eq ha.all (Table.All.snoc hb.wf.allA ?_ ?_)
    · refine h.src.mono (fun p v b e hp => hp.mono ?_ ⟨[], by simp [PState.fate]⟩ ?_)
      · intro x hx; exact List.mem_append_left _ hx
      · show ∀ x ∈ s.alg.log, x ∈ a.log
        rw [r1]; exact fun x hx => hx
    · have := hb.job_source (P := P) (s' := { ({ s with
          alg := { a with bestGapShown := g, stars := st, itercount := s.alg.itercount + 1 }
          gap := gap, evals := s.evals.tail } : PState O).fate job.id .recorded with
          pc := .closing todo }) (job := job)
        (by rw [he]; simp) (List.mem_append_right _ (by simp)) rfl
      rw [hn, ← hv] at this
      exact this

theorem PRec.cut {s t : PState O} (h : PRec P env pe s) (hc : RestartParCut P env pe s t) :
    PRec P env pe t.lose := by
  obtain ⟨pts, noisy, o, rfl, -, -⟩ := hc.frame
  have hcnt : ∀ b, (pts.map (fun p => (p, noisy, Tag.init))).countP (fun x => x.2.1 == b) =
      if noisy = b then pts.length else 0 := by
    intro b
    rw [List.countP_map]
    by_cases hnb : noisy = b
    · rw [if_pos hnb]
      rw [List.countP_eq_length]
      intro x _; simp [hnb]
    · rw [if_neg hnb]
      rw [List.countP_eq_zero]
      intro x _; simpa using hnb
  refine ⟨?_, ?_, h.logN, ?_⟩
  · show s.alg.evalcount + (if noisy then 0 else pts.length) = _
    rw [h.acc]
    simp only [PState.numSubs, PState.lose, PState.fresh, List.countP_append, hcnt, beginAlg]
    cases noisy <;> simp <;> ring
  · show s.alg.noisyEvalcount + (if noisy then pts.length else 0) = _
    rw [h.noisy]
    simp only [PState.numSubs, PState.lose, PState.fresh, List.countP_append, hcnt]
  · exact h.src.mono (fun p v b e hs =>
      hs.mono (fun x hx => List.mem_append_left _ hx) ⟨_, rfl⟩ (fun x hx => hx))

theorem PReach.recs {o : O} {c : PCtl} {s : PState O} (h : PReach P env pe o c s) :
    PRec P env pe s := by
  suffices key : PBook env pe s ∧ PRec P env pe s from key.2
  refine h.induct (I := fun s => PBook env pe s ∧ PRec P env pe s) ?_ ?_
    (fun _ _ _ _ h hp hc => ⟨h.1.collect hp hc, h.2.collect h.1 hc⟩)
    (fun _ _ _ _ h hp _ hc => ⟨h.1.harvest hp hc, h.2.harvest h.1 hc⟩)
    (fun _ _ _ h he hs hr hpc gap => ⟨h.1.restart he hs hr hpc gap, h.2.restart h.1 hr gap⟩) ?_
    (fun _ _ _ _ h _ he hc => ⟨h.1.close he hc, h.2.close h.1 he hc⟩)
    (fun _ _ _ _ h he hpc => ⟨h.1.fresh he hpc, h.2.congr rfl rfl rfl rfl rfl (fun x hx => hx)⟩)
    (fun _ _ h _ => ⟨h.1.ret, h.2.congr rfl rfl rfl rfl rfl (fun x hx => hx)⟩)
    (fun _ h _ => ⟨h.1.load, h.2.congr rfl rfl rfl rfl rfl (fun x hx => List.mem_append_left _ hx)⟩)
    (fun _ _ h he _ hc => ⟨h.1.cut he hc, h.2.cut hc⟩)
  · exact ⟨PReach.book (o := o) .init, by simp [Alg.init, PState.numSubs], by simp [Alg.init, PState.numSubs],
      by simp [Alg.init], by simp [Alg.init, Table.All]⟩
  · intro s s' hI hc
    have e := hc.data
    exact ⟨hI.1.ctrl hc, hI.2.congr (congrArg Data.evalcount e) (congrArg Data.noisyEvalcount e)
      (congrArg Data.log e) (congrArg Data.all e) hc.subs (by rw [hc.hist]; exact fun x hx => hx)⟩
  · intro s a rd rb noisy tag hI hp e _ _
    exact ⟨hI.1.submit hp e, hI.2.congr (congrArg Data.evalcount e)
      (congrArg Data.noisyEvalcount e)
      (congrArg Data.log e) (congrArg Data.all e) rfl (fun x hx => hx)⟩

end Rbfopt
