import Verif.Spec.ParallelSteps
import Verif.Props.ParallelDomain
import Verif.Props.EndToEnd

/-!
# C17: feasibility of every evaluation of a run with several CPUs, with the steps of the code
-/

namespace Rbfopt

variable {O : Type} {P : Params} {env : Env O} {pe : PEnv O} {o : O} {c : PCtl} {s s' : PState O}

/-- All current nodes satisfy `Q`. -/
def CurIn (Q : Pt → Prop) (s : PState O) : Prop := ∀ p ∈ s.alg.cur.pos, Q p

theorem CurIn.restart {Q : Pt → Prop} (hq : PSources Q P env pe)
    (hid : ∀ p, env.toInternal p = p) {s0 s1 : PState O} (hd : ∀ p ∈ s0.alg.all.pos, Q p)
    (hc : RestartPar P env pe s0 (.ok s1)) : CurIn Q s1 := by
  obtain ⟨pts, noisy, o, done, rest, prev, u, calls, a, m, M, i, hp⟩ := restartPar_ok hc
  have hpts : ∀ p ∈ pts, Q p := by
    rcases hp.sample with ⟨_, _, rfl, _⟩ | ⟨nodePos, a0, h1, _, _, h2⟩
    · simp
    · exact fun p hp' => hq.init _ _ _ h1 p (h2 p hp')
  intro p hpm
  rw [hp.eq] at hpm
  simp only [PState.fates, hp.install.cur, List.mem_map] at hpm
  obtain ⟨q, hpm, rfl⟩ := hpm
  rw [hid]
  simp only [Table.append, List.mem_append, initTable, List.mem_map] at hpm
  rcases hpm with (⟨x, hx, rfl⟩ | hpm) | hpm
  · obtain ⟨_, hg, _⟩ := initJobs_get (hp.perm.subset (List.mem_append_left rest hx))
    exact hpts _ (List.mem_of_getElem? hg)
  · obtain ⟨k, hk⟩ := List.getElem?_of_mem hpm
    obtain ⟨v, b, e, h3, h4, h5⟩ := hp.prevA.has hk
    obtain ⟨⟨k', h6, _⟩, _⟩ := hp.prevAll k q v b e hk h3 h4 h5
    exact hd q (List.mem_of_getElem? h6)
  · obtain ⟨k, hk⟩ := List.getElem?_of_mem hpm
    obtain ⟨v, b, e, h3, h4, h5⟩ := hp.uA.has hk
    obtain ⟨k', h6, _⟩ := hp.uAll k q v b e hk h3 h4 h5
    exact hq.user q (List.mem_of_getElem? h6)

theorem StepKind.curIn {Q : Pt → Prop} (hq : PSources Q P env pe)
    (hid : ∀ p, env.toInternal p = p) (hid' : ∀ p, env.toOrig p = p)
    (hcl : ∀ job todo, s.pc = .closing (job :: todo) → job ∈ s.evals)
    (hd : PDom Q env s) (h : CurIn Q s) (hk : StepKind P env pe s s') : CurIn Q s' := by
  have hsc : ScaleOK Q env := fun p hp => by rw [hid']; exact hp
  have hjobs : ∀ x ∈ s.evals, Q x.pt := fun x hx => by
    have := hd.jobs hsc x hx
    rwa [hid'] at this
  have hadd : ∀ {a b : Alg O} {p orig v n e}, AddOut a b p orig v n e →
      (∀ q ∈ a.cur.pos, Q q) → Q p → ∀ q ∈ b.cur.pos, Q q := by
    intro a b p orig v n e ha h1 h2 q hq'
    rw [ha.cur] at hq'
    simp only [Table.append, List.mem_append, List.mem_singleton] at hq'
    rcases hq' with hq' | rfl
    · exact h1 q hq'
    · exact h2
  cases hk with
  | ctrl hc =>
    have : s'.alg.cur = s.alg.cur := congrArg Data.cur hc.data
    unfold CurIn; rw [this]; exact h
  | collect _ hc e =>
    subst e
    obtain ⟨job, d, hj, _, ⟨_, tb, rfl⟩ | ⟨_, hn, _, a, ha, rfl⟩ |
      ⟨_, gap, a, a', rc, rb, _, hda, _, _, _, ha, _, _, rfl⟩⟩ := collectJob_cases hc
    · exact h
    · obtain ⟨-, -, -, -, -, -, -, c0, -⟩ := endPass_ctl ha
      show ∀ p ∈ a.cur.pos, _
      rw [c0]; exact h
    · obtain ⟨-, -, -, -, -, -, -, c0, -⟩ := endPass_ctl ha
      obtain ⟨g, st, hl⟩ := updateLog_frame (addJob pe env s.alg job) (jobResult pe job).1 gap
      rw [hl] at hda
      have d1 : a.cur = (addJob pe env s.alg job).cur := congrArg Data.cur hda
      show ∀ p ∈ a'.cur.pos, _
      rw [c0, d1]
      exact hadd (addJob_spec (pe := pe) (env := env) s.alg job) h (hjobs _ (List.mem_of_getElem? hj))
  | @harvest j res s1 _ hi hpr hc e =>
    subst e
    obtain ⟨job, rd, a, tb, hj, ha, hcase⟩ := harvestJob_cases hc
    have ha1 : ∀ p ∈ a.cur.pos, Q p := by
      rcases ha with rfl | ⟨i, p, _, _, _, hr⟩
      · exact h
      · obtain ⟨_, _, rfl⟩ := removeNode_spec hr
        exact fun p hp => h p (List.mem_of_mem_eraseIdx hp)
    rcases hcase with rfl | ⟨p0, hp0, hu, ⟨b, v, hr, hre⟩ | ⟨hr, rfl⟩⟩
    · obtain ⟨nc, rc, rb, _, _, e⟩ := harvestDiscard_eq (P := P) (takeSearch s j rd a tb) job.tag
      rw [e]
      exact ha1
    · obtain ⟨a1, e, gap, a2, hadd', hz, _, hg, he, rfl⟩ := harvestReuse_cases hre
      obtain ⟨-, -, -, -, -, -, -, c0, -⟩ := endPass_ctl he
      obtain ⟨g, st, hl⟩ := updateLog_frame a1 v gap
      rw [hl] at c0
      show ∀ p ∈ a2.cur.pos, _
      rw [show a2.cur = a1.cur from c0]
      have := hq.prop p0 (hpr p0 hp0)
      rw [hid'] at this
      exact hadd hadd' ha1 this
    · exact ha1
  | @restart s0 s1 pc hc _ _ hr _ e =>
    subst e
    have h0 : s0.alg.all = s.alg.all := congrArg Data.all hc.data
    have h1 : CurIn Q s1 := CurIn.restart hq hid (by rw [h0]; exact hd.recs hsc) hr
    exact h1
  | @submit a _ _ _ _ _ hda _ _ _ _ e =>
    subst e
    have : a.cur = s.alg.cur := congrArg Data.cur hda
    show ∀ p ∈ a.cur.pos, _
    rw [this]; exact h
  | close hp hc e =>
    subst e
    obtain ⟨hn, hne, a, gap, g, st, ha, _, rfl⟩ := closeJob_cases hc
    show ∀ p ∈ a.cur.pos, _
    exact hadd ha h (hjobs _ (hcl _ _ hp))

/-- If the domain is not scaled, all current nodes satisfy `Q`. -/
theorem PReach.curIn {Q : Pt → Prop} (hq : PSources Q P env pe)
    (hid : ∀ p, env.toInternal p = p) (hid' : ∀ p, env.toOrig p = p)
    (h : PReach P env pe o c s) : CurIn Q s := by
  have hsc : ScaleOK Q env := fun p hp => by rw [hid']; exact hp
  have hcut : ∀ q t : PState O, CurIn Q q → RestartParCut P env pe q t → CurIn Q t.lose := by
    intro q t hq' hc
    obtain ⟨pts, noisy, o, rfl, -, hpts⟩ := hc.frame
    exact hq'
  induction h with
  | init => intro p hp; simp [Alg.init] at hp
  | @call s0 _ pause h0 hs ih =>
    cases hs with
    | zeroFrequency _ => exact ih
    | firstFails _ _ _ => exact ih
    | @first s1 _ _ hr =>
      have : CurIn Q s1 := CurIn.restart (s0 := s0.fresh) hq hid ((h0.dom hq).recs hsc) hr
      unfold withGap; split <;> exact this
    | resumed _ _ => unfold withGap; split <;> exact ih
  | @step s s' start pause h0 hs ih =>
    refine hs.kind.curIn hq hid hid' ?_ (h0.dom hq) ih
    intro job todo hp
    rw [h0.closing_evals hp]
    exact List.mem_cons_self
  | ret _ _ ih => exact ih
  | load _ _ ih => exact ih
  | raises h0 hc ih =>
    obtain ⟨-, rfl | ⟨s1, hp, -, -, hr, -⟩⟩ := hc.cases
    · exact ih
    · refine hcut _ _ ?_ hr
      have : s1.alg.cur = _ := congrArg Data.cur hp.data
      unfold CurIn; rw [this]; exact ih
  | @firstRaises s _ h0 _ _ hr ih => exact hcut s.fresh _ ih hr

/-- The steps of the code given feasible nodes return feasible points. -/
theorem StepOutput.feasible {eps : ℚ} {vars : List Var} {sc : Scaling} {dist : Pt → Pt → ℚ}
    (hw : WellFormed vars) (hsc : sc = .off ∨ (construct eps vars).intVars = [])
    (hdim : 0 < (construct eps vars).dim) {nodes : List Pt} {p : Pt}
    (hn : ∀ q ∈ nodes, FeasibleInternal (stepProblem sc (construct eps vars)) q)
    (h : StepOutput dist (stepProblem sc (construct eps vars)) nodes p) :
    FeasibleInternal (stepProblem sc (construct eps vars)) p := by
  cases h with
  | pureGlobal h1 h2 h3 => exact (C78_pure_global_step hw hsc hdim h1 h2).1 p h3
  | global h1 h2 => exact (C78_global_step hw hsc hdim h1 hn h2).1
  | loc h1 h2 h3 => exact (C78_local_search hw hsc hdim h1 hn h2 h3).1
  | ref h1 h2 h3 h4 h5 => exact (C79_refinement_step hw hsc h1 h2 h3 h4 hn h5).1 p rfl

/-- Everything the code can produce is feasible. -/
theorem CodePoint.feasible {eps : ℚ} {vars : List Var} (hw : WellFormed vars)
    (hdim : 0 < (construct eps vars).dim)
    (hinit : SamplesIn env (FeasibleInternal (construct eps vars)))
    (huser : ∀ p ∈ P.initPos, FeasibleInternal (construct eps vars) p) {p : Pt}
    (h : CodePoint P env (construct eps vars) p) : FeasibleInternal (construct eps vars) p := by
  induction h with
  | sample h1 h2 => exact hinit _ _ _ h1 _ h2
  | user h1 => exact huser _ h1
  | step _ h2 ih => exact StepOutput.feasible (sc := .off) hw (.inl rfl) hdim ih h2

/-- **C17** (parallel, whole run) With several CPUs and domain scaling off, let every search result be
the result of one of the search steps of the code, with arbitrary settings, RBF, fitness, random numbers
and a solver whose results are feasible up to the integrality tolerance, given nodes that the code can
produce; and let samples be those of the code.  Then, whatever the interleaving of the workers and
also after exceptions, every point submitted to a worker or evaluated by the main process is feasible
for the user's problem.  The assumption on the nodes given to the searches is no restriction: all
current nodes and all temporary nodes are points that the code can produce. -/
theorem C17_parallel_whole_run {eps : ℚ} {vars : List Var} {C : InitCfg}
    (hw : WellFormed vars) (hrun : RunsOn P env eps vars .off) (hdim : 0 < (construct eps vars).dim)
    (hsteps : ∀ p, pe.proposes p → ∃ nodes, (∀ q ∈ nodes, CodePoint P env (construct eps vars) q) ∧
      StepOutput env.dist (construct eps vars) nodes p)
    (hsamp : SamplesComputed env C (construct eps vars)) (hdist : ∀ p, C.dist p p = 0)
    (hs : C.strategy.isLhd = true ∨ (construct eps vars).expansion = [])
    (huser : ∀ p ∈ P.initPos, FeasibleInternal (construct eps vars) p)
    (h : PReach P env pe o c s) :
    (∀ x ∈ s.subs, FeasibleUser eps vars (env.decode x.1)) ∧
    (∀ call ∈ s.alg.log, FeasibleUser eps vars call.point) ∧
    (∀ p ∈ s.alg.cur.pos, CodePoint P env (construct eps vars) p ∧
      FeasibleInternal (construct eps vars) p) ∧
    (∀ x ∈ s.evals, CodePoint P env (construct eps vars) x.pt ∧
      FeasibleInternal (construct eps vars) x.pt) := by
  have hinit : SamplesIn env (FeasibleInternal (construct eps vars)) := by
    intro s pts o' he
    obtain ⟨draws, hd, hr⟩ := hsamp s pts o' he
    exact C36_samples_feasible hw hdist hs hd hr
  have hF : ∀ {p}, CodePoint P env (construct eps vars) p → FeasibleInternal (construct eps vars) p :=
    fun hp => hp.feasible hw hdim hinit huser
  have hid : ∀ p, env.toInternal p = p := fun p => by rw [hrun.toInternal]; simp [transformDomain]
  have hid' : ∀ p, env.toOrig p = p := fun p => by rw [hrun.toOrig]; simp [transformDomain]
  have hprop : ∀ p, pe.proposes p → CodePoint P env (construct eps vars) p := fun p hp => by
    obtain ⟨nodes, h1, h2⟩ := hsteps p hp
    exact .step h1 h2
  have hq : PSources (CodePoint P env (construct eps vars)) P env pe := by
    refine ⟨fun _ _ _ h1 p h2 => .sample h1 h2, fun p hp => .user hp, fun p hp => ?_,
      fun _ p hp => by rw [hid']; exact hp⟩
    have hc := hprop p hp
    rw [hid', clipPt_self]
    · exact hc
    · rw [hrun.lower, hrun.upper]
      exact ⟨(hF hc).lower, (hF hc).upper⟩
  have hsc : ScaleOK (CodePoint P env (construct eps vars)) env := fun p hp => by
    rw [hid']; exact hp
  have hdom := h.dom hq
  have hdec : ∀ {p}, CodePoint P env (construct eps vars) p → FeasibleUser eps vars (env.decode p) := by
    intro p hp
    rw [hrun.decode]
    exact ((C30_bijection (eps := eps) hw).2 p (hF hp)).1
  refine ⟨fun x hx => hdec (hdom.subs x hx), fun call hcall => ?_, fun p hp => ?_, fun x hx => ?_⟩
  · obtain ⟨p, hp, e⟩ := hdom.log call hcall
    rw [e]; exact hdec hp
  · have := h.curIn hq hid hid' p hp
    exact ⟨this, hF this⟩
  · have := hdom.jobs hsc x hx
    rw [hid'] at this
    exact ⟨this, hF this⟩

end Rbfopt
