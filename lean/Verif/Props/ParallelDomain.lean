import Verif.Lemmas.ParallelTerm
import Verif.Props.Domain

/-!
# Feasibility (C17), spacing (C16), progress (C74) and failing models (C72) with several CPUs
-/

namespace Rbfopt

variable {O : Type} {P : Params} {env : Env O} {pe : PEnv O} {o : O} {c : PCtl} {s s' : PState O}

/-! ## C17 -/

/-- Transforming a point of the original space as if it were in the transformed space does not matter
for `Q`; for instance because the domain is not scaled. -/
def ScaleOK (Q : Pt → Prop) (env : Env O) : Prop := ∀ p, Q p → Q (env.toOrig p)

/-- All submitted evaluations are at points satisfying `Q`, and so will be their repetitions. -/
structure PDom (Q : Pt → Prop) (env : Env O) (s : PState O) : Prop where
  subs : ∀ x ∈ s.subs, Q x.1
  jobs : ScaleOK Q env → ∀ x ∈ s.evals, Q (env.toOrig x.pt)
  log : ∀ call ∈ s.alg.log, ∃ p, Q p ∧ call.point = env.decode p
  recs : ScaleOK Q env → ∀ p ∈ s.alg.all.pos, Q p

theorem PDom.of_sub {Q : Pt → Prop} {s t : PState O} (h : PDom Q env s) (e1 : t.subs = s.subs)
    (e2 : ∀ x ∈ t.evals, x ∈ s.evals) (e3 : t.alg.log = s.alg.log)
    (e4 : ∀ p ∈ t.alg.all.pos, p ∈ s.alg.all.pos) : PDom Q env t :=
  ⟨by rw [e1]; exact h.subs, fun h2 x hx => h.jobs h2 x (e2 x hx), by rw [e3]; exact h.log,
    fun h2 p hp => h.recs h2 p (e4 p hp)⟩

/-- What is required of the sources of points: the samples, the points given by the user, and the
search results, clipped and transformed back, satisfy `Q`.  In two-phase optimization scaling must
not matter. -/
structure PSources (Q : Pt → Prop) (P : Params) (env : Env O) (pe : PEnv O) : Prop where
  init : SamplesIn env Q
  user : ∀ p ∈ P.initPos, Q p
  prop : ∀ p, pe.proposes p → Q (env.toOrig (clipPt p P.lLower P.lUpper))
  noScale : P.twoPhase = true → ScaleOK Q env

theorem PDom.restart {Q : Pt → Prop} (hq : PSources Q P env pe) {s0 s1 : PState O}
    (h : PDom Q env s0) (hc : RestartPar P env pe s0 (.ok s1)) (pc : PC) (gap : EVal) :
    PDom Q env { s1 with pc := pc, gap := gap } := by
  obtain ⟨pts, noisy, o, done, rest, prev, u, calls, a, m, M, i, hp⟩ := restartPar_ok hc
  have hpts : ∀ p ∈ pts, Q p := by
    rcases hp.sample with ⟨_, _, rfl, _⟩ | ⟨nodePos, a0, h1, _, _, h2⟩
    · simp
    · exact fun p hp' => hq.init _ _ _ h1 p (h2 p hp')
  have hjob : ∀ x, x ∈ done ++ rest → Q x.pt := by
    intro x hx
    obtain ⟨_, hg, _⟩ := initJobs_get (hp.perm.subset hx)
    exact hpts _ (List.mem_of_getElem? hg)
  have hlog : a.log = s0.alg.log ++ calls := hp.install.log
  have hall := hp.install.all
  rw [hp.eq]
  refine ⟨?_, ?_, ?_, ?_⟩
  · intro x hx
    simp only [PState.fates, List.mem_append, List.mem_map] at hx
    rcases hx with hx | ⟨p, hp', rfl⟩
    · exact h.subs x hx
    · exact hpts p hp'
  · intro h2 x hx
    exact h2 _ (hjob x (List.mem_append_right done hx))
  · intro call hcall
    simp only [PState.fates, hlog, List.mem_append] at hcall
    rcases hcall with hcall | hcall
    · exact h.log call hcall
    · obtain ⟨p, hp', e⟩ := hp.callsPt call hcall
      exact ⟨p, hq.user p hp', e⟩
  · intro h2 p hpm
    simp only [PState.fates, hall, Table.append, List.mem_append, initTable, List.mem_map] at hpm
    rcases hpm with hpm | ((⟨x, hx, rfl⟩ | hpm) | hpm)
    · exact h.recs h2 p hpm
    · exact hjob x (List.mem_append_left _ hx)
    · obtain ⟨k, hk⟩ := List.getElem?_of_mem hpm
      obtain ⟨v, b, e, h3, h4, h5⟩ := hp.prevA.has hk
      obtain ⟨⟨k', h6, _⟩, _⟩ := hp.prevAll k p v b e hk h3 h4 h5
      exact h.recs h2 p (List.mem_of_getElem? h6)
    · obtain ⟨k, hk⟩ := List.getElem?_of_mem hpm
      obtain ⟨v, b, e, h3, h4, h5⟩ := hp.uA.has hk
      obtain ⟨k', h6, _⟩ := hp.uAll k p v b e hk h3 h4 h5
      exact hq.user p (List.mem_of_getElem? h6)

theorem StepKind.dom {Q : Pt → Prop} (hq : PSources Q P env pe)
    (hsg : P.twoPhase = false → ∀ x ∈ s.evals, x.noisy = false)
    (hcl : ∀ job todo, s.pc = .closing (job :: todo) → job ∈ s.evals) (h : PDom Q env s)
    (hk : StepKind P env pe s s') : PDom Q env s' := by
  cases hk with
  | ctrl hc =>
    exact h.of_sub hc.subs (by rw [hc.evals]; simp) (congrArg Data.log hc.data)
      (by rw [show s'.alg.all = s.alg.all from congrArg Data.all hc.data]; simp)
  | collect _ hc e =>
    subst e
    have hc' := hc
    obtain ⟨job, d, hj, _, ⟨_, tb, rfl⟩ | ⟨_, hn, _, a, ha, rfl⟩ |
      ⟨_, gap, a, a', rc, rb, _, hda, _, _, _, ha, _, _, rfl⟩⟩ := collectJob_cases hc
    · exact h.of_sub rfl (fun x hx => List.mem_of_mem_eraseIdx hx) rfl (fun p hp => hp)
    · have hmem := List.mem_of_getElem? hj
      have h2 : P.twoPhase = true := by
        by_contra hb
        have := hsg (by simpa using hb) job hmem
        rw [hn] at this; cases this
      have hsc2 := hq.noScale h2
      obtain ⟨-, -, -, -, -, -, -, c0, c1, c2, -⟩ := endPass_ctl ha
      refine ⟨?_, ?_, ?_, ?_⟩
      · intro x hx
        simp only [collectRepeat, PState.fate, PState.pushTemp, PState.submitEval, takeJob,
          PState.popTemp, List.mem_append, List.mem_singleton] at hx
        rcases hx with hx | rfl
        · exact h.subs x hx
        · exact h.jobs hsc2 job hmem
      · intro _ x hx
        simp only [collectRepeat, PState.fate, PState.pushTemp, PState.submitEval, takeJob,
          PState.popTemp, List.mem_append, List.mem_singleton] at hx
        rcases hx with hx | rfl
        · exact h.jobs hsc2 x (List.mem_of_mem_eraseIdx hx)
        · exact h.jobs hsc2 job hmem
      · show ∀ call ∈ a.log, _
        rw [c2]; exact h.log
      · intro h2
        show ∀ p ∈ a.all.pos, _
        rw [c1]; exact h.recs h2
    · have hmem := List.mem_of_getElem? hj
      obtain ⟨-, -, -, -, -, -, -, c0, c1, c2, -⟩ := endPass_ctl ha
      obtain ⟨g, st, hl⟩ := updateLog_frame (addJob pe env s.alg job) (jobResult pe job).1 gap
      rw [hl] at hda
      have hadd := addJob_spec (pe := pe) (env := env) s.alg job
      have d1 : a.all = _ := (congrArg Data.all hda).trans hadd.all
      have d2 : a.log = _ := (congrArg Data.log hda).trans hadd.rest.1
      refine ⟨h.subs, fun h2 x hx => h.jobs h2 x (List.mem_of_mem_eraseIdx hx), ?_, ?_⟩
      · show ∀ call ∈ a'.log, _
        rw [c2, d2]; exact h.log
      · intro h2
        show ∀ p ∈ a'.all.pos, _
        rw [c1, d1]
        intro p hp
        simp only [Table.append, List.mem_append, List.mem_singleton] at hp
        rcases hp with hp | rfl
        · exact h.recs h2 p hp
        · exact h.jobs h2 job hmem
  | @harvest j res s1 _ hi hpr hc e =>
    subst e
    obtain ⟨job, rd, a, tb, hj, ha, hcase⟩ := harvestJob_cases hc
    have ha1 : ∀ p ∈ a.all.pos, p ∈ s.alg.all.pos := by
      rcases ha with rfl | ⟨i, p, _, _, _, hr⟩
      · exact fun p hp => hp
      · obtain ⟨_, _, rfl⟩ := removeNode_spec hr
        exact fun p hp => List.mem_of_mem_eraseIdx hp
    have ha2 : a.log = s.alg.log := by
      rcases ha with rfl | ⟨i, p, _, _, _, hr⟩
      · rfl
      · obtain ⟨_, _, rfl⟩ := removeNode_spec hr; rfl
    rcases hcase with rfl | ⟨p0, hp0, hu, ⟨b, v, hr, hre⟩ | ⟨hr, rfl⟩⟩
    · obtain ⟨nc, rc, rb, _, _, e⟩ := harvestDiscard_eq (P := P) (takeSearch s j rd a tb) job.tag
      rw [e]
      exact h.of_sub rfl (fun x hx => hx) ha2 ha1
    · obtain ⟨a1, e, gap, a2, hadd, hz, _, hg, he, rfl⟩ := harvestReuse_cases hre
      obtain ⟨-, -, -, -, -, -, -, c0, c1, c2, -⟩ := endPass_ctl he
      obtain ⟨g, st, hl⟩ := updateLog_frame a1 v gap
      rw [hl] at c1 c2
      have d1 : a2.all = _ := c1.trans hadd.all
      have d2 : a2.log = a.log := c2.trans hadd.rest.1
      refine ⟨h.subs, h.jobs, ?_, ?_⟩
      · show ∀ call ∈ a2.log, _
        rw [d2, ha2]; exact h.log
      · intro h2
        show ∀ p ∈ a2.all.pos, _
        rw [d1]
        intro p hp
        simp only [Table.append, List.mem_append, List.mem_singleton] at hp
        rcases hp with hp | rfl
        · exact h.recs h2 p (ha1 p hp)
        · exact hq.prop p0 (hpr p0 hp0)
    · have hnew := hq.prop p0 (hpr p0 hp0)
      refine ⟨?_, ?_, ?_, ?_⟩
      · intro x hx
        simp only [harvestSubmit, PState.pushTemp, PState.submitEval, takeSearch, List.mem_append,
          List.mem_singleton] at hx
        rcases hx with hx | rfl
        · exact h.subs x hx
        · exact hnew
      · intro h2 x hx
        simp only [harvestSubmit, PState.pushTemp, PState.submitEval, takeSearch, List.mem_append,
          List.mem_singleton] at hx
        rcases hx with hx | rfl
        · exact h.jobs h2 x hx
        · exact hnew
      · show ∀ call ∈ a.log, _
        rw [ha2]; exact h.log
      · exact fun h2 p hp => h.recs h2 p (ha1 p hp)
  | @restart s0 s1 pc hc _ _ hr _ e =>
    subst e
    have h0 : PDom Q env s0 := h.of_sub hc.subs (by rw [hc.evals]; simp) (congrArg Data.log hc.data)
      (by rw [show s0.alg.all = s.alg.all from congrArg Data.all hc.data]; simp)
    exact h0.restart hq hr pc s1.gap
  | @submit a _ _ _ _ _ hd _ _ _ _ e =>
    subst e
    exact h.of_sub rfl (fun x hx => hx) (congrArg Data.log hd)
      (fun p hp => by
        have : a.all = s.alg.all := congrArg Data.all hd
        rw [← this]; exact hp)
  | close hp hc e =>
    subst e
    have hmem := hcl _ _ hp
    obtain ⟨hn, hne, a, gap, g, st, ha, _, rfl⟩ := closeJob_cases hc
    refine ⟨h.subs, fun h2 x hx => h.jobs h2 x (List.mem_of_mem_tail hx), ?_, ?_⟩
    · show ∀ call ∈ a.log, _
      rw [ha.rest.1]; exact h.log
    · intro h2
      show ∀ p ∈ a.all.pos, _
      rw [ha.all]
      intro p hp
      simp only [Table.append, List.mem_append, List.mem_singleton] at hp
      rcases hp with hp | rfl
      · exact h.recs h2 p hp
      · exact h.jobs h2 _ hmem

theorem PReach.dom {Q : Pt → Prop} (hq : PSources Q P env pe) (h : PReach P env pe o c s) :
    PDom Q env s := by
  have hfr : ∀ q : PState O, PDom Q env q → PDom Q env q.fresh := fun q hq' =>
    hq'.of_sub rfl (by simp [PState.fresh]) rfl (fun p hp => hp)
  have hw : ∀ q : PState O, PDom Q env q → PDom Q env (withGap P q) := by
    intro q h1; unfold withGap; split <;> exact h1.of_sub rfl (fun x hx => hx) rfl (fun p hp => hp)
  have hlose : ∀ q : PState O, PDom Q env q → PDom Q env q.lose := fun q hq' =>
    hq'.of_sub rfl (by simp [PState.lose, PState.fresh]) rfl (fun p hp => hp)
  have hcut : ∀ q t : PState O, PDom Q env q → RestartParCut P env pe q t → PDom Q env t.lose := by
    intro q t hq' hc
    obtain ⟨pts, noisy, o, rfl, -, hpts⟩ := hc.frame
    refine ⟨?_, by simp [PState.lose, PState.fresh], hq'.log, hq'.recs⟩
    intro x hx
    rcases List.mem_append.mp hx with hx | hx
    · exact hq'.subs x hx
    · obtain ⟨p, hp, rfl⟩ := List.mem_map.mp hx
      rcases hpts with rfl | ⟨nodePos, h1, h2⟩
      · simp at hp
      · exact hq.init _ _ _ h1 p (h2 p hp)
  induction h with
  | init => exact ⟨by simp, by simp, by simp [Alg.init], by simp [Alg.init]⟩
  | @call s0 _ pause h0 hs ih =>
    cases hs with
    | zeroFrequency _ =>
      exact (hfr _ ih).of_sub rfl (by simp [PState.fresh]) rfl (fun p hp => hp)
    | firstFails _ _ _ =>
      exact (hfr _ ih).of_sub rfl (by simp [PState.fresh]) rfl (fun p hp => hp)
    | @first s1 _ _ hr =>
      apply hw
      exact ((hfr _ ih).restart hq hr s1.pc s1.gap)
    | resumed _ _ =>
      apply hw
      exact (hfr _ ih).of_sub rfl (by simp [PState.fresh]) rfl (fun p hp => hp)
  | @step s s' start pause h0 hs ih =>
    refine hs.kind.dom hq (fun hP x hx => (h0.single hP).job h0.book hx) ?_ ih
    intro job todo hp
    rw [h0.closing_evals hp]
    exact List.mem_cons_self
  | ret _ _ ih => exact ih.of_sub rfl (fun x hx => hx) rfl (fun p hp => hp)
  | load _ _ ih => exact hlose _ ih
  | raises h0 hc ih =>
    obtain ⟨-, rfl | ⟨s1, hp, -, -, hr, -⟩⟩ := hc.cases
    · exact hlose _ ih
    · refine hcut _ _ ?_ hr
      exact ih.of_sub hp.subs (by rw [hp.evals]; simp) (congrArg Data.log hp.data)
        (fun p h => by
          have := congrArg Data.all hp.data
          dsimp only [Alg.data] at this
          rwa [this] at h)
  | firstRaises h0 _ _ hr ih => exact hcut _ _ (hfr _ ih) hr

/-- **C17** (parallel) All points given to workers for evaluation, and all points evaluated by the main
process, satisfy `Q` if the samples, the user's points and the transformed search results do; in
two-phase optimization provided that scaling does not affect `Q` (see C70). -/
theorem C17_parallel_evaluations {Q : Pt → Prop} (hq : PSources Q P env pe)
    (h : PReach P env pe o c s) :
    (∀ x ∈ s.subs, Q x.1) ∧ ∀ call ∈ s.alg.log, ∃ p, Q p ∧ call.point = env.decode p :=
  ⟨(h.dom hq).subs, (h.dom hq).log⟩

/-- **C17** (parallel) So do all records, provided that scaling does not affect `Q`. -/
theorem C17_parallel_records {Q : Pt → Prop} (hq : PSources Q P env pe) (hs : ScaleOK Q env)
    (h : PReach P env pe o c s) : ∀ p ∈ s.alg.all.pos, Q p := (h.dom hq).recs hs

/-- **C17** (parallel) For a well-formed problem (bounds of integer variables integral, …) and domain
scaling off (or, without `evaluate_noisy`, no integer variables), all points passed to the user's
functions by workers and by the main process are feasible, if the samples, the user's points and the
search results are. -/
theorem C17_parallel_feasible {eps : ℚ} {vars : List Var} {sc : Scaling} (hw : WellFormed vars)
    (hrun : RunsOn P env eps vars sc) (hsc : sc = .off ∨ (construct eps vars).intVars = [])
    (htwo : P.twoPhase = true → sc = .off)
    (hprop : ∀ p, pe.proposes p → Proposable (construct eps vars) p)
    (hinit : SamplesIn env (FeasibleInternal (construct eps vars)))
    (huser : ∀ p ∈ P.initPos, FeasibleInternal (construct eps vars) p)
    (h : PReach P env pe o c s) :
    (∀ x ∈ s.subs, FeasibleUser eps vars (env.decode x.1)) ∧
    ∀ call ∈ s.alg.log, FeasibleUser eps vars call.point := by
  have hce := construct_eq (eps := eps) hw
  obtain ⟨r1, r2, r3, r4, r5⟩ := hrun
  rw [hce] at hsc hinit huser r1 r2
  simp only [hce] at r3 r4 r5 hprop
  have hq : PSources (FeasibleInternal (layout eps vars)) P env pe := by
    refine ⟨hinit, huser, fun p hp => (clip_toOrig_feasible hw r1 r2 r4 hsc (hprop p hp)).2, ?_⟩
    intro h2 p hp
    rw [r4, htwo h2]
    simpa [transformDomain] using hp
  have hdec : ∀ p, FeasibleInternal (layout eps vars) p → FeasibleUser eps vars (env.decode p) := by
    intro p hp
    have := (C30_bijection (eps := eps) hw).2 p (by rw [hce]; exact hp)
    rw [hce] at this
    rw [r5]
    exact this.1
  obtain ⟨h1, h2⟩ := C17_parallel_evaluations hq h
  refine ⟨fun x hx => hdec _ (h1 x hx), ?_⟩
  intro call hcall
  obtain ⟨p, hp, e⟩ := h2 call hcall
  rw [e]
  exact hdec p hp

/-! ## C16 -/

theorem endPass_nInit {a a' : Alg O} (h : endPass P a = .ok a') : a'.nInit = a.nInit := by
  unfold endPass at h
  dsimp only at h
  split at h
  · cases h
  · cases h
    unfold phaseUpdate stallingUpdate
    dsimp only
    split <;> (try split) <;> (try split) <;> simp_all

theorem SpacedOK.of_eq {a b : Alg O} (h : SpacedOK P env a) (e1 : b.cur.pos = a.cur.pos)
    (e2 : b.nInit = a.nInit) : SpacedOK P env b := by
  unfold SpacedOK; rw [e1, e2]; exact h

theorem SpacedOK.append {a b : Alg O} (h : SpacedOK P env a) {p : Pt}
    (e1 : b.cur.pos = a.cur.pos ++ [p]) (e2 : b.nInit = a.nInit)
    (hp : ∀ q ∈ a.cur.pos, P.minDist < env.dist p q) : SpacedOK P env b := by
  obtain ⟨hl, hs⟩ := h
  unfold SpacedOK
  rw [e1, e2]
  refine ⟨by simp only [List.length_append]; omega, ?_⟩
  intro i j p' q hij hj hq hp'
  by_cases hbl : j < a.cur.pos.length
  · rw [List.getElem?_append_left hbl] at hp'
    rw [List.getElem?_append_left (by omega)] at hq
    exact hs i j p' q hij hj hq hp'
  · have hb' := (List.getElem?_eq_some_iff.mp hp').1
    simp only [List.length_append, List.length_singleton] at hb'
    rw [List.getElem?_append_left (by omega)] at hq
    rw [List.getElem?_append_right (by omega), show j - a.cur.pos.length = 0 by omega] at hp'
    simp only [List.getElem?_cons_zero, Option.some.injEq] at hp'
    subst hp'
    exact hp q (List.mem_of_getElem? hq)

theorem SpacedOK.restartPar {s0 s1 : PState O} (hr : RestartPar P env pe s0 (.ok s1)) :
    SpacedOK P env s1.alg := by
  obtain ⟨pts, noisy, o, done, rest, prev, u, calls, a, m, M, i, hp⟩ := restartPar_ok hr
  have h1 := hp.install.cur
  have h2 := hp.install.nInit
  rw [hp.eq]
  show SpacedOK P env a
  unfold SpacedOK
  rw [h1, h2]
  refine ⟨by simp, ?_⟩
  intro a b p q hab hb hq hp
  have := (List.getElem?_eq_some_iff.mp hp).1
  simp at this; omega

theorem StepKind.spaced (hk : StepKind P env pe s s') (hact : s'.pc.Active)
    (h : SpacedOK P env s.alg) : SpacedOK P env s'.alg := by
  cases hk with
  | ctrl hc =>
    exact h.of_eq (congrArg (fun d => d.cur.pos) hc.data) (congrArg Data.nInit hc.data)
  | collect _ hc e =>
    subst e
    obtain ⟨job, d, hj, hd, ⟨_, tb, rfl⟩ | ⟨_, hn, _, a, ha, rfl⟩ |
      ⟨hlt, gap, a, a', rc, rb, _, hda, _, _, _, ha, _, _, rfl⟩⟩ := collectJob_cases hc
    · exact h
    · obtain ⟨-, -, -, -, -, -, -, c0, -⟩ := endPass_ctl ha
      have c1 := endPass_nInit ha
      exact h.of_eq (congrArg Table.pos c0) c1
    · obtain ⟨-, -, -, -, -, -, -, c0, -⟩ := endPass_ctl ha
      obtain ⟨g, st, hl⟩ := updateLog_frame (addJob pe env s.alg job) (jobResult pe job).1 gap
      rw [hl] at hda
      have hadd := addJob_spec (pe := pe) (env := env) s.alg job
      have d1 : a.cur = _ := (congrArg Data.cur hda).trans hadd.cur
      have d2 : a.nInit = _ := (congrArg Data.nInit hda).trans hadd.rest.2.2.2.2.2.2.2
      exact h.append (p := job.pt) ((congrArg Table.pos (c0.trans d1))) ((endPass_nInit ha).trans d2)
        (getMinDistance_gt hd hlt)
  | @harvest j res s1 _ hi hpr hc e =>
    subst e
    obtain ⟨job, rd, a, tb, hj, ha, hcase⟩ := harvestJob_cases hc
    have h' : SpacedOK P env a := by
      rcases ha with rfl | ⟨i, p, _, _, _, hr⟩
      · exact h
      · exact h.remove hr
    rcases hcase with rfl | ⟨p0, hp0, hu, ⟨b, v, hr, hre⟩ | ⟨hr, rfl⟩⟩
    · obtain ⟨nc, rc, rb, _, _, e⟩ := harvestDiscard_eq (P := P) (takeSearch s j rd a tb) job.tag
      rw [e]
      exact h'.of_eq rfl rfl
    · obtain ⟨a1, e, gap, a2, hadd, hz, _, hg, he, rfl⟩ := harvestReuse_cases hre
      obtain ⟨-, -, -, -, -, -, -, c0, -⟩ := endPass_ctl he
      have c1 := endPass_nInit he
      obtain ⟨g, st, hl⟩ := updateLog_frame a1 v gap
      rw [hl] at c0 c1
      obtain ⟨⟨d, hd, hlt⟩, -⟩ := harvestUsable_true hu
      exact h'.append (p := clipPt p0 P.lLower P.lUpper)
        (congrArg Table.pos (c0.trans hadd.cur)) (c1.trans hadd.rest.2.2.2.2.2.2.2)
        (getMinDistance_gt hd hlt)
    · exact h'.of_eq rfl rfl
  | restart hc _ _ hr _ e =>
    subst e
    have := SpacedOK.restartPar hr
    exact this
  | @submit a _ _ _ _ _ hd _ _ _ _ e =>
    subst e
    exact h.of_eq (congrArg (fun d => d.cur.pos) hd) (congrArg Data.nInit hd)
  | close hp hc e => subst e; exact hact.elim

/-- **C16** (parallel) While the main loop of a call runs, every node other than the initial ones is
farther than `min_dist` from all earlier nodes, for every schedule; provided this was so when the
call started, which holds for the first call.  (At the shutdown of a call nodes are added without
checking, see C63.) -/
theorem C16_parallel_spacing {s0 : PState O} {pause : ℕ} (h : CallReach P env pe o s0 pause s)
    (h0 : s0.alg.itercount = 0 ∨ SpacedOK P env s0.alg) (ha : s.pc.Active) (i j : ℕ) (p q : Pt)
    (hij : i < j) (hj : s.alg.nInit ≤ j) (hq : s.alg.cur.pos[i]? = some q)
    (hp : s.alg.cur.pos[j]? = some p) : P.minDist < env.dist p q := by
  have hw : ∀ {q : PState O}, (withGap P q).alg = q.alg := by
    intro q; unfold withGap; split <;> rfl
  have key : s.pc.Active → SpacedOK P env s.alg := by
    clear ha hij hj hq hp
    induction h with
    | start _ hs =>
      intro ha
      cases hs with
      | zeroFrequency _ => exact ha.elim
      | firstFails _ _ _ => exact ha.elim
      | first _ _ hr => rw [hw]; exact SpacedOK.restartPar hr
      | resumed _ hi => rw [hw]; exact h0.resolve_left hi
    | step hc hs ih =>
      intro ha
      refine hs.kind.spaced ha (ih ?_)
      by_contra hna
      cases hs with
      | close hp => unfold PState.orRaise at ha; split at ha <;> exact ha.elim
      | _ => simp_all [PC.Active]
  exact (key ha).2 i j p q hij hj hq hp

/-- **C16** (parallel) A point is only given to a worker for evaluation if it is farther than
`min_dist` from all nodes and from all points under evaluation (initial points excepted). -/
theorem C16_parallel_submission {start pause : ℕ} (h : PReach P env pe o (.running start pause) s)
    (hp : s.pc = .searches) (hs : PStep P env pe start pause s s') (hsub : s'.subs ≠ s.subs) :
    ∃ (p : Pt) (b : Bool) (t : Tag), s'.subs = s.subs ++ [(env.toOrig p, b, t)] ∧
      (∀ q ∈ s'.alg.cur.pos, P.minDist < env.dist p q) ∧
      (∀ x ∈ s.evals, P.minDist < env.dist p x.pt) := by
  have ht := h.book.tpos (by simp [hp, PC.Active])
  cases hs with
  | harvest j res _ hj hi hpr =>
    unfold PState.orRaise at hsub ⊢
    split at hsub
    · exact absurd rfl hsub
    · rename_i s1 hs1
      obtain ⟨job, rd, a, tb, hj, ha, hcase⟩ := harvestJob_cases hs1
      rcases hcase with rfl | ⟨p0, hp0, hu, ⟨b, v, hr, hre⟩ | ⟨hr, rfl⟩⟩
      · obtain ⟨nc, rc, rb, _, _, e⟩ := harvestDiscard_eq (P := P) (takeSearch s j rd a tb) job.tag
        rw [e] at hsub
        exact absurd rfl hsub
      · obtain ⟨a1, e, gap, a2, hadd, hz, _, hg, he, rfl⟩ := harvestReuse_cases hre
        exact absurd rfl hsub
      · obtain ⟨⟨d, hd, hlt⟩, hu2⟩ := harvestUsable_true hu
        refine ⟨clipPt p0 P.lLower P.lUpper, job.noisy, harvestTag job.tag res, rfl,
          getMinDistance_gt hd hlt, ?_⟩
        intro x hx
        have hu3 : ∀ d, getMinDistance env.dist (clipPt p0 P.lLower P.lUpper) s.tPos = some d →
          P.minDist < d := hu2
        rw [ht] at hu3
        cases hm : getMinDistance env.dist (clipPt p0 P.lLower P.lUpper)
            (s.evals.map (fun x => x.pt)) with
        | none =>
          have := getMinDistance_none.mp hm
          rw [List.map_eq_nil_iff] at this
          rw [this] at hx; simp at hx
        | some d' =>
          exact getMinDistance_gt hm (hu3 d' hm) _ (List.mem_map.mpr ⟨x, hx, rfl⟩)
  | searchesDone _ => exact absurd rfl hsub
  | _ => simp_all

/-! ## C72: models that cannot be built -/

/-- **C72** (violation) With a fixed type of RBF (no lists of selected models), if the interpolation
model cannot be built and the underdetermined system is no remedy, every continuation of the run is an
`IndexError`; no restoration or restart takes place. -/
theorem C72_fixed_rbf_raises {start pause : ℕ} (hp : s.pc = .model) {o1 o2 : O}
    (h1 : env.prep s.alg = .ok o1) (h2 : env.modelFails { s.alg with opq := o1 } = (true, o2))
    (h3 : ¬ (P.n + 1 ≤ s.alg.cur.pos.length + s.tPos.length ∧ s.alg.solveUnder = false))
    (h4 : pe.noCvList s.alg = true) (hs : PStep P env pe start pause s s') :
    s' = { s with pc := .raised .indexError } := by
  cases hs with
  | noList => rfl
  | underdetermined _ g1 g2 g3 g4 => exact absurd ⟨g3, g4⟩ h3
  | prepFails _ g1 => rw [h1] at g1; cases g1
  | waitRestoration _ g1 g2 g3 _ =>
    rw [h1] at g1
    cases g1
    rw [h2] at g2
    cases g2
    rcases g3 with ⟨_, _, g⟩ | ⟨g, _⟩
    · rw [h4] at g; cases g
    · cases g
  | restoration _ g1 g2 g3 _ _ =>
    rw [h1] at g1
    cases g1
    rw [h2] at g2
    cases g2
    rcases g3 with ⟨_, _, g⟩ | ⟨g, _⟩
    · rw [h4] at g; cases g
    · cases g
  | submit _ _ _ g1 g2 _ =>
    rw [h1] at g1
    cases g1
    rw [h2] at g2
    cases g2
  | _ => simp_all

/-- **C72** With automatic model selection a model that cannot be built never raises: the engine tries
the underdetermined system, waits for the outstanding work, or restarts. -/
theorem C72_auto_rbf_recovers {start pause : ℕ} (hp : s.pc = .model) {o1 o2 : O}
    (h1 : env.prep s.alg = .ok o1) (h2 : env.modelFails { s.alg with opq := o1 } = (true, o2))
    (h4 : pe.noCvList s.alg = false) (hs : PStep P env pe start pause s s') :
    (s'.pc = .top ∧ s'.alg.data = s.alg.data ∧ s'.evals = s.evals ∧ s'.searches = s.searches) ∨
    (s.evals = [] ∧ s.searches = [] ∧ ∃ r, RestartPar P env pe { s with alg := { s.alg with
        opq := o2, step := P.restorationStep, solveUnder := false } } r ∧ s' = s.orRaise .top r) := by
  cases hs with
  | noList _ _ _ _ g => rw [h4] at g; cases g
  | underdetermined _ g1 g2 g3 g4 => exact Or.inl ⟨rfl, rfl, rfl, rfl⟩
  | prepFails _ g1 => rw [h1] at g1; cases g1
  | waitRestoration _ g1 g2 g3 _ => exact Or.inl ⟨rfl, rfl, rfl, rfl⟩
  | restoration _ g1 g2 g3 hb hr =>
    rw [h1] at g1
    cases g1
    rw [h2] at g2
    cases g2
    have hb' : s.evals = [] ∧ s.searches = [] := by simpa [parBusy] using hb
    exact Or.inr ⟨hb'.1, hb'.2, _, hr, rfl⟩
  | submit _ _ _ g1 g2 _ =>
    rw [h1] at g1
    cases g1
    rw [h2] at g2
    cases g2
  | _ => simp_all

/-! ## C74: progress -/

/-- **C74** The parallel engine never gets stuck: in every state that is not final some step is
possible, if the initialization generates enough points. -/
theorem C74_never_stuck (hmin : ∀ a pts o, env.initNodes a = .ok (pts, o) → pe.minInit ≤ pts.length)
    (s : PState O) (start pause : ℕ) :
    s.pc = .done ∨ (∃ e, s.pc = .raised e) ∨ ∃ s', PStep P env pe start pause s s' := by
  cases hp : s.pc with
  | top =>
    cases hc : parCond P env start pause s with
    | true => exact Or.inr (Or.inr ⟨_, .enter hp hc⟩)
    | false => exact Or.inr (Or.inr ⟨_, .leave hp hc⟩)
  | evals b => exact Or.inr (Or.inr ⟨_, .evalsDone hp⟩)
  | searches => exact Or.inr (Or.inr ⟨_, .searchesDone hp⟩)
  | submit =>
    right; right
    cases hf : parFull pe s with
    | true => exact ⟨_, .full hp hf⟩
    | false =>
      cases hk : parSkip P s with
      | true => exact ⟨_, .skip hp hf hk⟩
      | false =>
        cases hr : shouldRestart P s.alg with
        | false => exact ⟨_, .noRestart hp hf hk hr⟩
        | true =>
          cases hb : parBusy s with
          | true => exact ⟨_, .waitRestart hp hf hk hr hb⟩
          | false =>
            obtain ⟨r, h⟩ := C62_restart_completes hmin s (P := P)
            exact ⟨_, .restart hp hf hk hr hb h⟩
  | model =>
    right; right
    cases h1 : env.prep s.alg with
    | error e => exact ⟨_, .prepFails hp h1⟩
    | ok o1 =>
      have hrest : ∀ f o2, env.modelFails { s.alg with opq := o1 } = (f, o2) →
          (f = true ∧ ¬ (P.n + 1 ≤ s.alg.cur.pos.length + s.tPos.length ∧ s.alg.solveUnder = false) ∧
            pe.noCvList s.alg = false) ∨ (f = false ∧ s.alg.step = P.restorationStep) →
          ∃ s', PStep P env pe start pause s s' := by
        intro f o2 h2 h3
        cases hb : parBusy s with
        | true => exact ⟨_, .waitRestoration hp h1 h2 h3 hb⟩
        | false =>
          obtain ⟨r, h⟩ := C62_restart_completes hmin (P := P)
            ({ s with alg := { s.alg with opq := o2, step := P.restorationStep
                                          solveUnder := false } } : PState O)
          exact ⟨_, .restoration hp h1 h2 h3 hb h⟩
      obtain ⟨f, o2, h2⟩ : ∃ f o2, env.modelFails { s.alg with opq := o1 } = (f, o2) :=
        ⟨_, _, rfl⟩
      cases f with
      | true =>
        by_cases hu : P.n + 1 ≤ s.alg.cur.pos.length + s.tPos.length ∧ s.alg.solveUnder = false
        · exact ⟨_, .underdetermined hp h1 h2 hu.1 hu.2⟩
        · cases hn : pe.noCvList s.alg with
          | true => exact ⟨_, .noList hp h1 h2 hu hn⟩
          | false => exact hrest _ _ h2 (Or.inl ⟨rfl, hu, hn⟩)
      | false =>
        by_cases hst : s.alg.step = P.restorationStep
        · exact hrest _ _ h2 (Or.inr ⟨rfl, hst⟩)
        · exact ⟨_, .submit false false hp h1 h2 hst⟩
  | closing todo =>
    right; right
    cases todo with
    | nil => exact ⟨_, .finish hp⟩
    | cons job todo => exact ⟨_, .close hp⟩
  | done => exact Or.inl rfl
  | raised e => exact Or.inr (Or.inl ⟨e, rfl⟩)

/-- After the main loop only finitely many steps are possible. -/
theorem inactive_finite {start pause : ℕ} (f : ℕ → PState O)
    (hs : ∀ n, PStep P env pe start pause (f n) (f (n + 1))) (n : ℕ) : (f n).pc.Active := by
  by_contra hna
  have hraise : ∀ m e, (f m).pc ≠ .raised e := by
    intro m e he
    have h1 := hs m
    generalize f (m + 1) = y at h1
    cases h1 <;> simp_all
  have hdone : ∀ m, (f m).pc ≠ .done := by
    intro m he
    have h1 := hs m
    generalize f (m + 1) = y at h1
    cases h1 <;> simp_all
  have hcl : ∀ (todo : List EvalJob) m, (f m).pc ≠ .closing todo := by
    intro todo
    induction todo with
    | nil =>
      intro m he
      refine hdone (m + 1) ?_
      have h1 := hs m
      generalize f (m + 1) = y at h1 ⊢
      cases h1 <;> simp_all
    | cons job todo ih =>
      intro m he
      have h2 : (f (m + 1)).pc = .closing todo ∨ ∃ e, (f (m + 1)).pc = .raised e := by
        have h1 := hs m
        generalize f (m + 1) = y at h1 ⊢
        cases h1 with
        | close hp =>
          rw [he] at hp
          cases hp
          unfold PState.orRaise
          split
          · exact Or.inr ⟨_, rfl⟩
          · exact Or.inl rfl
        | _ => simp_all
      rcases h2 with h2 | ⟨e, h2⟩
      · exact ih (m + 1) h2
      · exact hraise (m + 1) e h2
  cases hp : (f n).pc with
  | closing todo => exact hcl todo n hp
  | done => exact hdone n hp
  | raised e => exact hraise n e hp
  | _ => rw [hp] at hna; exact hna trivial

/-- **C74** A parallel call can only run forever if, from some time on, evaluations or searches are
outstanding and none of them ever finishes: in every infinite execution the outstanding work is
eventually constant and not empty.  Hence if every evaluation and every search finishes and is
collected, the call ends. -/
theorem C74_runs_forever_only_waiting {s0 : PState O} {pause N : ℕ} (hcpu : 0 < pe.numCpus)
    (hN : ∀ a pts o, env.initNodes a = .ok (pts, o) → pts.length ≤ N)
    (f : ℕ → PState O) (h0 : CallReach P env pe o s0 pause (f 0))
    (hs : ∀ n, PStep P env pe s0.alg.itercount pause (f n) (f (n + 1))) :
    ∃ n0, ∀ n, n0 ≤ n → (f n).evals = (f n0).evals ∧ (f n).searches = (f n0).searches ∧
      ((f n).evals ≠ [] ∨ (f n).searches ≠ []) := by
  have hr : ∀ n, CallReach P env pe o s0 pause (f n) := by
    intro n
    induction n with
    | zero => exact h0
    | succ n ih => exact .step ih (hs n)
  have hact := inactive_finite f hs
  set T := max s0.alg.itercount (min P.maxIter (s0.alg.itercount + pause) - 1) +
      2 * max pe.numCpus (N + 1) + 1 with hT
  have hit : ∀ n, (f n).alg.itercount < T := by
    intro n
    have h1 := (hr n).iter hN
    have h2 := hact n
    unfold IterInv at h1
    have := le_evalWeight (f n).evals
    cases hp : (f n).pc <;> rw [hp] at h1 h2 <;> dsimp only at h1 <;>
      first
      | omega
      | exact h2.elim
  have hstep : ∀ n, potential P N T (f (n + 1)) + 1 ≤ potential P N T (f n) ∨
      (Polls (f n) (f (n + 1)) ∧ potential P N T (f (n + 1)) ≤ potential P N T (f n) ∧
        ((f (n + 1)).pc = .top → (f n).pc = .evals (f n).alg.itercount ∨ (∃ b, (f n).pc = .evals b) ∨
          parFull pe (f n) = true ∨ parBusy (f n) = true)) := by
    intro n
    rcases (hs n).potential hN ((hr n).cyc hN) (fun _ => hit n) with h | h | h
    · exact absurd (hact (n + 1)) h
    · exact Or.inl h
    · exact Or.inr h
  -- the potential is eventually constant
  obtain ⟨n0, hn0⟩ : ∃ n0, ∀ n, n0 ≤ n →
      ¬ (potential P N T (f (n + 1)) + 1 ≤ potential P N T (f n)) := by
    by_contra hcon
    push Not at hcon
    have hmono : ∀ m k, potential P N T (f (m + k)) ≤ potential P N T (f m) := by
      intro m k
      induction k with
      | zero => exact le_refl _
      | succ k ih =>
        rcases hstep (m + k) with h | ⟨_, h, _⟩
        · have : m + (k + 1) = m + k + 1 := rfl
          rw [this]; omega
        · exact h.trans ih
    have hdec : ∀ v m, potential P N T (f m) ≤ v → False := by
      intro v
      induction v with
      | zero =>
        intro m hm
        obtain ⟨n, hn, h⟩ := hcon m
        have := hmono m (n - m)
        rw [Nat.add_sub_cancel' hn] at this
        omega
      | succ v ih =>
        intro m hm
        obtain ⟨n, hn, h⟩ := hcon m
        have := hmono m (n - m)
        rw [Nat.add_sub_cancel' hn] at this
        exact ih (n + 1) (by omega)
    exact hdec _ 0 (le_refl _)
  have hpoll : ∀ n, n0 ≤ n → Polls (f n) (f (n + 1)) ∧
      ((f (n + 1)).pc = .top → (f n).pc = .evals (f n).alg.itercount ∨ (∃ b, (f n).pc = .evals b) ∨
        parFull pe (f n) = true ∨ parBusy (f n) = true) := by
    intro n hn
    rcases hstep n with h | ⟨h, -, h'⟩
    · exact absurd h (hn0 n hn)
    · exact ⟨h, h'⟩
  have hconst : ∀ k, (f (n0 + k)).evals = (f n0).evals ∧ (f (n0 + k)).searches = (f n0).searches ∧
      (f (n0 + k)).alg.itercount = (f n0).alg.itercount := by
    intro k
    induction k with
    | zero => exact ⟨rfl, rfl, rfl⟩
    | succ k ih =>
      obtain ⟨⟨h1, h2, h3, -⟩, -⟩ := hpoll (n0 + k) (by omega)
      exact ⟨h1.trans ih.1, h2.trans ih.2.1, h3.trans ih.2.2⟩
  -- the work outstanding is not empty
  have hsub : ∀ n, n0 ≤ n → (f n).pc = .submit → (f n0).evals ≠ [] ∨ (f n0).searches ≠ [] := by
    intro n hn hp
    have hc := hconst (n - n0)
    rw [Nat.add_sub_cancel' hn] at hc
    have hbusy : ∀ m, n0 ≤ m → (parFull pe (f m) = true ∨ parBusy (f m) = true) →
        (f n0).evals ≠ [] ∨ (f n0).searches ≠ [] := by
      intro m hm hb
      have hc := hconst (m - n0)
      rw [Nat.add_sub_cancel' hm] at hc
      rw [← hc.1, ← hc.2.1]
      rcases hb with hb | hb
      · by_contra hcon
        push Not at hcon
        simp only [parFull, hcon.1, hcon.2, List.length_nil, decide_eq_true_eq] at hb
        omega
      · simpa [parBusy] using hb
    obtain ⟨⟨-, -, -, hpc⟩, htop⟩ := hpoll n hn
    have hnot : ∀ n, (f n).pc = .submit ∨ (f n).pc = .model → ¬ ((f n).pc = .evals (f n).alg.itercount ∨ ∃ b, (f n).pc = .evals b) := by
      rintro n (h | h) (h' | ⟨b, h'⟩) <;> rw [h] at h' <;> cases h'
    rcases hpc with ⟨h, _⟩ | ⟨b, h, _⟩ | ⟨h, _⟩ | ⟨_, h⟩ | ⟨_, h⟩ | ⟨h, _⟩
    · rw [hp] at h; cases h
    · rw [hp] at h; cases h
    · rw [hp] at h; cases h
    · rcases htop h with h' | h' | h'
      · exact absurd (Or.inl h') (hnot n (Or.inl hp))
      · exact absurd (Or.inr h') (hnot n (Or.inl hp))
      · exact hbusy n hn h'
    · obtain ⟨⟨-, -, -, hpc2⟩, htop2⟩ := hpoll (n + 1) (by omega)
      have h2 : (f (n + 1 + 1)).pc = .top := by
        rcases hpc2 with ⟨h', _⟩ | ⟨b, h', _⟩ | ⟨h', _⟩ | ⟨h', _⟩ | ⟨h', _⟩ | ⟨_, h'⟩
        · rw [h] at h'; cases h'
        · rw [h] at h'; cases h'
        · rw [h] at h'; cases h'
        · rw [h] at h'; cases h'
        · rw [h] at h'; cases h'
        · exact h'
      rcases htop2 h2 with h' | h' | h'
      · exact absurd (Or.inl h') (hnot (n + 1) (Or.inr h))
      · exact absurd (Or.inr h') (hnot (n + 1) (Or.inr h))
      · exact hbusy (n + 1) (by omega) h'
    · rw [hp] at h; cases h
  have hsea : ∀ n, n0 ≤ n → (f n).pc = .searches → (f n0).evals ≠ [] ∨ (f n0).searches ≠ [] := by
    intro n hn hp
    obtain ⟨⟨-, -, -, hpc⟩, -⟩ := hpoll n hn
    refine hsub (n + 1) (by omega) ?_
    rcases hpc with ⟨h, _⟩ | ⟨b, h, _⟩ | ⟨_, h⟩ | ⟨h, _⟩ | ⟨h, _⟩ | ⟨h, _⟩
    · rw [hp] at h; cases h
    · rw [hp] at h; cases h
    · exact h
    · rw [hp] at h; cases h
    · rw [hp] at h; cases h
    · rw [hp] at h; cases h
  have htop : ∀ n, n0 ≤ n → (f n).pc = .top → (f n0).evals ≠ [] ∨ (f n0).searches ≠ [] := by
    intro n hn hp
    obtain ⟨⟨-, -, h3, hpc⟩, -⟩ := hpoll n hn
    obtain ⟨⟨-, -, -, hpc2⟩, -⟩ := hpoll (n + 1) (by omega)
    have h1 : (f (n + 1)).pc = .evals (f n).alg.itercount := by
      rcases hpc with ⟨_, h⟩ | ⟨b, h, _⟩ | ⟨h, _⟩ | ⟨h, _⟩ | ⟨h, _⟩ | ⟨h, _⟩
      · exact h
      all_goals rw [hp] at h; cases h
    refine hsea (n + 2) (by omega) ?_
    rcases hpc2 with ⟨h, _⟩ | ⟨b, h, h'⟩ | ⟨h, _⟩ | ⟨h, _⟩ | ⟨h, _⟩ | ⟨h, _⟩
    · rw [h1] at h; cases h
    · rw [h1] at h
      cases h
      rw [h3] at h'
      simpa using h'
    all_goals rw [h1] at h; cases h
  have hbusy : (f n0).evals ≠ [] ∨ (f n0).searches ≠ [] := by
    have hn := hpoll n0 (le_refl _)
    cases hp : (f n0).pc with
    | top => exact htop n0 (le_refl _) hp
    | searches => exact hsea n0 (le_refl _) hp
    | submit => exact hsub n0 (le_refl _) hp
    | evals b =>
      obtain ⟨⟨-, -, -, hpc⟩, -⟩ := hn
      rcases hpc with ⟨h, _⟩ | ⟨b', h, h'⟩ | ⟨h, _⟩ | ⟨h, _⟩ | ⟨h, _⟩ | ⟨h, _⟩
      · rw [hp] at h; cases h
      · by_cases hlt : b' < (f n0).alg.itercount
        · rw [if_pos hlt] at h'; exact htop (n0 + 1) (by omega) h'
        · rw [if_neg hlt] at h'; exact hsea (n0 + 1) (by omega) h'
      all_goals rw [hp] at h; cases h
    | model =>
      obtain ⟨⟨-, -, -, hpc⟩, -⟩ := hn
      rcases hpc with ⟨h, _⟩ | ⟨b', h, h'⟩ | ⟨h, _⟩ | ⟨h, _⟩ | ⟨h, _⟩ | ⟨_, h⟩
      · rw [hp] at h; cases h
      · rw [hp] at h; cases h
      · rw [hp] at h; cases h
      · rw [hp] at h; cases h
      · rw [hp] at h; cases h
      · exact htop (n0 + 1) (by omega) h
    | closing todo => have := hact n0; rw [hp] at this; exact this.elim
    | done => have := hact n0; rw [hp] at this; exact this.elim
    | raised e => have := hact n0; rw [hp] at this; exact this.elim
  refine ⟨n0, fun n hn => ?_⟩
  have hc := hconst (n - n0)
  rw [Nat.add_sub_cancel' hn] at hc
  exact ⟨hc.1, hc.2.1, by rw [hc.1, hc.2.1]; exact hbusy⟩

/-- **C74** (black boxes without `evaluate_noisy`) Records are never changed or removed: every step
only appends to them. -/
theorem C74_records_append_only (hP : P.twoPhase = false) {start pause : ℕ}
    (h : Relation.ReflTransGen (PStep P env pe start pause) s s') :
    ∃ t, s'.alg.all = s.alg.all.append t := by
  induction h with
  | refl => exact ⟨{}, by simp [Table.append]⟩
  | tail _ hs ih =>
    obtain ⟨t, ht⟩ := ih
    obtain ⟨t', ht'⟩ := hs.kind.append hP
    exact ⟨t.append t', by rw [ht', ht]; simp [Table.append]⟩

end Rbfopt
