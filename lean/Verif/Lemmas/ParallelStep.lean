import Verif.Lemmas.ParallelIter

/-! # The kinds of steps of the parallel engine -/

namespace Rbfopt

variable {O : Type} {P : Params} {env : Env O} {pe : PEnv O}

/-- Kinds of steps. -/
inductive StepKind (P : Params) (env : Env O) (pe : PEnv O) (s s' : PState O) : Prop
  | ctrl : PCtrl pe s s' → StepKind P env pe s s'
  | collect {b j : ℕ} {s1 : PState O} : s.pc = .evals b → collectJob P env pe s j = .ok s1 →
      s' = { s1 with pc := .evals b } → StepKind P env pe s s'
  | harvest {j : ℕ} {res : SearchRes} {s1 : PState O} : s.pc = .searches →
      (P.twoPhase = false ∨ s.searches[j]?.map SearchJob.noisy = some true → res.ind = none) → (∀ p, res.next = some p → pe.proposes p) → harvestJob P env pe s j res = .ok s1 →
      s' = { s1 with pc := .searches } → StepKind P env pe s s'
  | restart {s0 s1 : PState O} {pc : PC} : PCtrl pe s s0 → s.evals = [] → s.searches = [] →
      RestartPar P env pe s0 (.ok s1) → (pc = .model ∨ pc = .top) → s' = { s1 with pc := pc } →
      StepKind P env pe s s'
  | submit {a : Alg O} {rd rb noisy : Bool} {tag : Tag} : s.pc = .model → a.data = s.alg.data →
      a.itercount = s.alg.itercount → noisy = decide (s.alg.mode = .noisy) →
      (tag = .ref → s.refBusy = false ∧ rb = true) → (tag ≠ .ref → rb = s.refBusy) →
      s' = { ({ s with alg := a, rankDef := rd, refBusy := rb } : PState O).submitSearch noisy tag
        with pc := .top } → StepKind P env pe s s'
  | close {job : EvalJob} {todo : List EvalJob} {s1 : PState O} : s.pc = .closing (job :: todo) →
      closeJob P env pe s job = .ok s1 → s' = { s1 with pc := .closing todo } →
      StepKind P env pe s s'

theorem PStep.kind {s s' : PState O} {st pa : ℕ} (hs : PStep P env pe st pa s s') :
    StepKind P env pe s s' := by
  have hraise : ∀ e, PCtrl pe s { s with pc := .raised e } := fun e =>
      ⟨rfl, rfl, rfl, rfl, rfl, rfl, rfl, rfl, rfl, rfl, by simp [PC.Active],
        by simp, by simp, by simp, rfl, rfl, rfl, rfl, rfl⟩
  cases hs with
  | enter hp _ =>
    exact .ctrl ⟨rfl, rfl, rfl, rfl, rfl, rfl, rfl, rfl, rfl, rfl, by simp [hp, PC.Active],
      by simp, by simp, by simp, rfl, rfl, rfl, rfl, rfl⟩
  | leave hp _ =>
    refine .ctrl ⟨rfl, rfl, rfl, rfl, rfl, rfl, rfl, rfl, rfl, rfl, by simp [hp, PC.Active],
      ?_, by simp, by simp, rfl, rfl, rfl, rfl, rfl⟩
    simp [hp, PC.Active]
  | @collect b j hp hj =>
    unfold PState.orRaise
    split
    · exact .ctrl (hraise _)
    · rename_i s1 hs1; exact .collect hp hs1 rfl
  | @evalsDone b hp =>
    refine .ctrl ⟨rfl, rfl, rfl, rfl, rfl, rfl, rfl, rfl, rfl, rfl, by simp [hp, PC.Active],
      ?_, ?_, ?_, rfl, rfl, rfl, rfl, rfl⟩ <;> (dsimp only; split <;> simp)
  | harvest j res hp hj hi hpr =>
    unfold PState.orRaise
    split
    · exact .ctrl (hraise _)
    · rename_i s1 hs1; exact .harvest hp hi hpr hs1 rfl
  | searchesDone hp =>
    exact .ctrl ⟨rfl, rfl, rfl, rfl, rfl, rfl, rfl, rfl, rfl, rfl, by simp [hp, PC.Active],
      by simp, by simp, by simp, rfl, rfl, rfl, rfl, rfl⟩
  | full hp _ =>
    exact .ctrl ⟨rfl, rfl, rfl, rfl, rfl, rfl, rfl, rfl, rfl, rfl, by simp [hp, PC.Active],
      by simp, by simp, by simp, rfl, rfl, rfl, rfl, rfl⟩
  | skip hp _ _ =>
    exact .ctrl ⟨rfl, rfl, rfl, rfl, rfl, rfl, rfl, rfl, rfl, rfl, by simp [hp, PC.Active],
      by simp, by simp, by simp, rfl, rfl, rfl, rfl, rfl⟩
  | waitRestart hp _ _ _ _ =>
    exact .ctrl ⟨rfl, rfl, rfl, rfl, rfl, rfl, rfl, rfl, rfl, rfl, by simp [hp, PC.Active],
      by simp, by simp, by simp, rfl, rfl, rfl, rfl, rfl⟩
  | @restart r hp _ _ _ hb hr =>
    unfold PState.orRaise
    have hb' : s.evals = [] ∧ s.searches = [] := by simpa [parBusy] using hb
    split
    · exact .ctrl (hraise _)
    · exact .restart (s0 := s) ⟨rfl, rfl, rfl, rfl, rfl, rfl, rfl, rfl, rfl, rfl, by simp, by simp [hp],
        by simp [hp], by simp [hp], rfl, rfl, rfl, rfl, rfl⟩ hb'.1 hb'.2 hr (Or.inl rfl) rfl
  | noRestart hp hf _ _ =>
    refine .ctrl ⟨rfl, rfl, rfl, rfl, rfl, rfl, rfl, rfl, rfl, rfl, by simp [hp, PC.Active],
      by simp, ?_, by simp, rfl, rfl, rfl, rfl, rfl⟩
    intro _
    right
    simpa [parFull] using hf
  | prepFails hp _ => exact .ctrl (hraise _)
  | underdetermined hp _ _ _ _ =>
    exact .ctrl ⟨rfl, rfl, rfl, rfl, rfl, rfl, rfl, rfl, rfl, rfl, by simp [hp, PC.Active],
      by simp, by simp, by simp, rfl, rfl, rfl, rfl, rfl⟩
  | noList hp _ _ _ _ => exact .ctrl (hraise _)
  | waitRestoration hp _ _ _ _ =>
    exact .ctrl ⟨rfl, rfl, rfl, rfl, rfl, rfl, rfl, rfl, rfl, rfl, by simp [hp, PC.Active],
      by simp, by simp, by simp, rfl, rfl, rfl, rfl, rfl⟩
  | @restoration o1 o2 f r hp _ _ _ hb hr =>
    unfold PState.orRaise
    have hb' : s.evals = [] ∧ s.searches = [] := by simpa [parBusy] using hb
    split
    · exact .ctrl (hraise _)
    · rename_i s1
      exact .restart (s0 := { s with
          alg := { s.alg with opq := o2, step := P.restorationStep, solveUnder := false } })
        ⟨rfl, rfl, rfl, rfl, rfl, rfl, rfl, rfl, rfl, rfl, by simp, by simp [hp], by simp [hp],
          by simp [hp], rfl, rfl, rfl, rfl, rfl⟩ hb'.1 hb'.2 hr (Or.inr rfl) rfl
  | @submit o1 o2 r1 r2 hp _ _ _ =>
    unfold PState.orRaise
    split
    · exact .ctrl (hraise _)
    · rename_i s1 hs1
      obtain ⟨a, rd, rb, e1, e2, rfl | ⟨noisy, tag, rfl, e3, e4, e5⟩⟩ := submitNext_cases hs1
      · exact .ctrl ⟨e1, e2, rfl, rfl, rfl, rfl, rfl, rfl, rfl, rfl, by simp [hp, PC.Active],
          by simp, by simp, by simp, rfl, rfl, rfl, rfl, rfl⟩
      · exact .submit hp e1 e2 e3 e4 e5 rfl
  | @close job todo hp =>
    unfold PState.orRaise
    split
    · exact .ctrl (hraise _)
    · rename_i s1 hs1; exact .close hp hs1 rfl
  | finish hp =>
    exact .ctrl ⟨rfl, rfl, rfl, rfl, rfl, rfl, rfl, rfl, rfl, rfl, by simp [PC.Active],
      by simp, by simp, by simp [hp], rfl, rfl, rfl, rfl, rfl⟩

/-- Effect of a collected job on the records. -/
theorem collect_records {s s' : PState O} {j : ℕ} (hc : collectJob P env pe s j = .ok s') :
    ∃ job, s.evals[j]? = some job ∧
      ((s'.alg.all = s.alg.all ∧ s'.alg.cur = s.alg.cur ∧
          (s'.hist = s.hist ++ [(job.id, .skipped)] ∨
            (job.noisy = true ∧ s'.hist = s.hist ++ [(job.id, .repeated)]))) ∨
       (s'.hist = s.hist ++ [(job.id, .recorded)] ∧
        (∀ q ∈ s.alg.cur.pos, P.minDist < env.dist job.pt q) ∧ s.alg.cur.pos ≠ [] ∧
        s'.alg.cur = s.alg.cur.append { pos := [job.pt], val := [(jobResult pe job).1]
                                        noisy := [job.noisy], err := [(jobResult pe job).2] } ∧
        s'.alg.all = s.alg.all.append { pos := [env.toOrig job.pt], val := [(jobResult pe job).1]
                                        noisy := [job.noisy], err := [(jobResult pe job).2] })) := by
  obtain ⟨job, d, hj, hd, hcase⟩ := collectJob_cases hc
  refine ⟨job, hj, ?_⟩
  rcases hcase with ⟨_, tb, rfl⟩ | ⟨_, hn, _, a, ha, rfl⟩ |
    ⟨hlt, gap, a, a', rc, rb, hg, hda, _, _, _, ha, _, _, rfl⟩
  · exact Or.inl ⟨rfl, rfl, Or.inl rfl⟩
  · obtain ⟨-, -, -, -, -, -, -, c0, c1, -⟩ := endPass_ctl ha
    exact Or.inl ⟨c1, c0, Or.inr ⟨hn, rfl⟩⟩
  · obtain ⟨-, -, -, -, -, -, -, c0, c1, -⟩ := endPass_ctl ha
    have hadd := addJob_spec (pe := pe) (env := env) s.alg job
    obtain ⟨g, st, hl⟩ := updateLog_frame (addJob pe env s.alg job) (jobResult pe job).1 gap
    rw [hl] at hda
    have d1 : a.all = (addJob pe env s.alg job).all := congrArg Data.all hda
    have d2 : a.cur = (addJob pe env s.alg job).cur := congrArg Data.cur hda
    exact Or.inr ⟨rfl, getMinDistance_gt hd hlt, getMinDistance_ne_nil hd,
      c0.trans (d2.trans hadd.cur), c1.trans (d1.trans hadd.all)⟩

/-- In single-phase runs records are only ever added. -/
theorem StepKind.append {s s' : PState O} (h : StepKind P env pe s s') (hP : P.twoPhase = false) :
    ∃ t, s'.alg.all = s.alg.all.append t := by
  have hnil : ∀ t : Table, t = t.append {} := fun t => by simp [Table.append]
  cases h with
  | ctrl hc => exact ⟨{}, (congrArg Data.all hc.data).trans (hnil _)⟩
  | collect _ hc e =>
    subst e
    obtain ⟨job, _, ⟨h1, _⟩ | ⟨_, _, _, _, h1⟩⟩ := collect_records hc
    · exact ⟨{}, h1.trans (hnil _)⟩
    · exact ⟨_, h1⟩
  | @harvest j res s1 _ hi _ hc e =>
    subst e
    obtain ⟨job, rd, a, tb, hj, ha, hcase⟩ := harvestJob_cases hc
    have ha' : a = s.alg := by
      rcases ha with h | ⟨_, _, h, _⟩
      · exact h
      · exact absurd (hi (Or.inl hP)) h
    subst ha'
    rcases hcase with rfl | ⟨p0, hp0, hu, ⟨b, v, hr, hre⟩ | ⟨hr, rfl⟩⟩
    · obtain ⟨nc, rc, rb, _, _, e⟩ := harvestDiscard_eq (P := P) (takeSearch s j rd s.alg tb) job.tag
      rw [e]
      exact ⟨{}, hnil _⟩
    · obtain ⟨a1, e, gap, a2, hadd, hz, _, hg, he, rfl⟩ := harvestReuse_cases hre
      obtain ⟨-, -, -, -, -, -, -, -, c1, -⟩ := endPass_ctl he
      obtain ⟨g, st, hl⟩ := updateLog_frame a1 v gap
      rw [hl] at c1
      exact ⟨_, c1.trans hadd.all⟩
    · exact ⟨{}, hnil _⟩
  | restart hc _ _ hr _ e =>
    subst e
    obtain ⟨pts, noisy, o, done, rest, prev, u, calls, a, m, M, i, hp⟩ := restartPar_ok hr
    have h1 : a.all = _ := hp.install.all
    have h2 := congrArg Data.all hc.data
    simp only [Alg.data] at h2
    simp only [beginAlg, h2] at h1
    rw [hp.eq]
    exact ⟨_, h1⟩
  | submit _ hd _ _ _ _ e =>
    subst e
    exact ⟨{}, (congrArg Data.all hd).trans (hnil _)⟩
  | close _ hc e =>
    subst e
    obtain ⟨hn, hne, a, gap, g, st, ha, _, rfl⟩ := closeJob_cases hc
    exact ⟨_, ha.all⟩

end Rbfopt
