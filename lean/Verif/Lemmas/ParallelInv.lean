import Verif.Lemmas.Parallel

/-! # Induction over the reachable states of the parallel engine, and its bookkeeping invariant -/

namespace Rbfopt

variable {O : Type} {P : Params} {env : Env O} {pe : PEnv O}

/-- Actions that change neither the recorded data nor the outstanding work. -/
structure PCtrl (pe : PEnv O) (s s' : PState O) : Prop where
  data : s'.alg.data = s.alg.data
  itercount : s'.alg.itercount = s.alg.itercount
  evals : s'.evals = s.evals
  searches : s'.searches = s.searches
  tPos : s'.tPos = s.tPos
  tVal : s'.tVal = s.tVal
  tNoisy : s'.tNoisy = s.tNoisy
  subs : s'.subs = s.subs
  hist : s'.hist = s.hist
  left : s'.left = s.left
  active : s'.pc.Active → s.pc.Active
  closing : ∀ todo, s'.pc = .closing todo → s.pc.Active ∧ todo = s.evals
  model : s'.pc = .model → s.pc = .model ∨ s.evals.length + s.searches.length < pe.numCpus
  done : s'.pc = .done → s.pc = .closing []
  tabu : s'.tabu = s.tabu
  err : s'.err = s.err
  iid : s'.iid = s.iid
  refBusy : s'.refBusy = s.refBusy
  cut : s'.cut = s.cut

theorem submitRefine_cases {s s' : PState O} {r1 r2 : Bool}
    (h : submitRefine P env s r1 r2 = .ok s') :
    ∃ a, a.data = s.alg.data ∧ a.itercount = s.alg.itercount ∧
      (s' = { s with alg := a } ∨
       ∃ noisy, s' = ({ s with alg := a, rankDef := r2, refBusy := true } : PState O).submitSearch
          noisy .ref ∧ noisy = decide (s.alg.mode = .noisy)) := by
  unfold submitRefine at h
  split at h
  · cases h
  · rename_i a ha
    have hd : a.data = s.alg.data ∧ a.itercount = s.alg.itercount := by
      split at ha
      · have h1 := initRefIfNeeded_data ha
        refine ⟨h1, ?_⟩
        unfold initRefIfNeeded at ha
        dsimp only at ha
        split at ha
        · split at ha
          · split at ha
            · cases ha
            · cases ha; rfl
          · cases ha
        · cases ha; rfl
      · cases ha; exact ⟨rfl, rfl⟩
    dsimp only at h
    split at h
    · cases h
      exact ⟨advanceStep P { a with numCons := s.alg.numCons, opq := _ }, hd.1, hd.2, Or.inl rfl⟩
    · cases h
      have hm : a.mode = s.alg.mode := congrArg Data.mode hd.1
      exact ⟨{ a with numCons := s.alg.numCons, opq := _ }, hd.1, hd.2, Or.inr ⟨_, rfl, by rw [hm]⟩⟩

theorem submitNext_cases {s s' : PState O} {r1 r2 : Bool} (h : submitNext P env s r1 r2 = .ok s') :
    ∃ a rd rb, a.data = s.alg.data ∧ a.itercount = s.alg.itercount ∧
      (s' = { s with alg := a } ∨
       ∃ noisy tag, s' = ({ s with alg := a, rankDef := rd, refBusy := rb } : PState O).submitSearch
          noisy tag ∧ noisy = decide (s.alg.mode = .noisy) ∧ (tag = .ref → s.refBusy = false ∧ rb = true) ∧
          (tag ≠ .ref → rb = s.refBusy)) := by
  unfold submitNext at h
  split at h
  · rename_i hc
    obtain ⟨a, h1, h2, h3 | ⟨noisy, h3, h4⟩⟩ := submitRefine_cases h
    · exact ⟨a, r2, true, h1, h2, Or.inl h3⟩
    · exact ⟨a, r2, true, h1, h2, Or.inr ⟨noisy, .ref, h3, h4, fun _ => ⟨hc.1, rfl⟩, by simp⟩⟩
  · cases h
    refine ⟨advanceStep P s.alg, s.rankDef, s.refBusy, rfl, rfl, Or.inr ⟨_, _, rfl, rfl, ?_, fun _ => rfl⟩⟩
    intro ht
    split at ht
    · cases ht
    · split at ht <;> cases ht

theorem PCtrl.evals_done {s s' : PState O} (h : PCtrl pe s s')
    (h1 : ∀ todo, s.pc = .closing todo → s.evals = todo) (_h2 : s.pc = .done → s.evals = []) :
    (∀ todo, s'.pc = .closing todo → s'.evals = todo) ∧ (s'.pc = .done → s'.evals = []) := by
  refine ⟨fun todo ht => ?_, fun hd => ?_⟩
  · rw [h.evals]; exact (h.closing todo ht).2.symm
  · rw [h.evals]; exact h1 [] (h.done hd)

theorem closeJob_cases {s s' : PState O} {job : EvalJob} (h : closeJob P env pe s job = .ok s') :
    job.noisy = false ∧ s.alg.cur.pos ≠ [] ∧
    ∃ a gap g st, AddOut s.alg a job.pt (env.toOrig job.pt) (pe.acc job.id) false (0, 0) ∧
      currentGap P a = .ok gap ∧
      s' = ({ s with alg := { a with bestGapShown := g, stars := st, itercount := s.alg.itercount + 1 }
                     gap := gap, evals := s.evals.tail } : PState O).fate job.id .recorded := by
  unfold closeJob at h
  split at h
  · cases h
  · rename_i d hd
    have hne : s.alg.cur.pos ≠ [] := by
      intro h0; rw [h0] at hd; simp [getMinDistance, getMinDistanceAndIndex, argminVal] at hd
    split at h
    · split at h <;> cases h
    · rename_i hn
      refine ⟨by simpa using hn, hne, ?_⟩
      dsimp only at h
      split at h
      · cases h
      · rename_i gap hg
        cases h
        have ha := addNode_spec s.alg job.pt (env.toOrig job.pt) (pe.acc job.id)
        obtain ⟨g, st, hl⟩ := updateLog_frame
          (addNode s.alg job.pt (env.toOrig job.pt) (pe.acc job.id)) (pe.acc job.id) gap
        refine ⟨_, gap, g, st, ha, hg, ?_⟩
        rw [hl]
        simp only [ha.ctl.1]

theorem collectJob_pc {s s' : PState O} {j : ℕ} (h : collectJob P env pe s j = .ok s') :
    s'.pc = s.pc := by
  obtain ⟨job, d, _, _, ⟨_, tb, rfl⟩ | ⟨_, _, _, a, _, rfl⟩ |
    ⟨_, gap, a, a', rc, rb, _, _, _, _, _, _, _, _, rfl⟩⟩ := collectJob_cases h <;> rfl

theorem collectJob_cut {s s' : PState O} {j : ℕ} (h : collectJob P env pe s j = .ok s') :
    s'.cut = s.cut := by
  obtain ⟨job, d, _, _, ⟨_, tb, rfl⟩ | ⟨_, _, _, a, _, rfl⟩ |
    ⟨_, gap, a, a', rc, rb, _, _, _, _, _, _, _, _, rfl⟩⟩ := collectJob_cases h <;> rfl

theorem restartPar_cut {s s' : PState O} (h : RestartPar P env pe s (.ok s')) : s'.cut = false := by
  obtain ⟨pts, noisy, o, done, rest, prev, u, calls, a, m, M, i, hparts⟩ := restartPar_ok h
  rw [hparts.eq]; rfl

theorem RestartParCut.frame {s t : PState O} (h : RestartParCut P env pe s t) :
    ∃ pts noisy o, t = { s with
        alg := beginAlg s.alg o noisy pts.length
        evals := initJobs noisy s.subs.length pts
        subs := s.subs ++ pts.map (fun p => (p, noisy, Tag.init))
        cut := true } ∧
      (noisy = true → s.alg.mode = .noisy) ∧
      (pts = [] ∨ ∃ nodePos, env.initNodes (restartEnter s.alg) = .ok (nodePos, o) ∧
        ∀ p ∈ pts, p ∈ nodePos) := by
  cases h with
  | noSample _ _ =>
    refine ⟨[], false, s.alg.opq, ?_, by simp, Or.inl rfl⟩
    simp [beginAlg, restartEnter, initJobs]
  | worker h1 _ _ =>
    obtain ⟨pts, noisy, o, rfl, h2, -, -, ⟨-, -, h3, -⟩ | ⟨nodePos, a, h4, rfl, -, h5⟩⟩ :=
      restartBegin_cases h1
    · exact ⟨pts, noisy, o, rfl, h2, Or.inl h3⟩
    · exact ⟨pts, noisy, o, rfl, h2, Or.inr ⟨nodePos, h4, h5⟩⟩
  | user h1 _ _ =>
    obtain ⟨pts, noisy, o, rfl, h2, -, -, ⟨-, -, h3, -⟩ | ⟨nodePos, a, h4, rfl, -, h5⟩⟩ :=
      restartBegin_cases h1
    · exact ⟨pts, noisy, o, rfl, h2, Or.inl h3⟩
    · exact ⟨pts, noisy, o, rfl, h2, Or.inr ⟨nodePos, h4, h5⟩⟩

theorem RestartParCut.removed {s t : PState O} (h : RestartParCut P env pe s t) :
    t.evals.map (fun x => x.pt) = [] ∨ ∃ (nodePos : List Pt) (a0 a1 : Alg O) (r : Removal),
      env.initNodes a0 = .ok (nodePos, t.alg.opq) ∧ a1.mode = s.alg.mode ∧ a1.all = s.alg.all ∧
      a1.nAtRestart = s.alg.all.pos.length ∧ removeExistingIf P env a1 nodePos = some r ∧
      t.evals.map (fun x => x.pt) = r.pos := by
  cases h with
  | noSample _ _ => exact Or.inl rfl
  | worker h1 _ _ =>
    rcases restartBegin_removed h1 with h2 | ⟨nodePos, a0, a1, r, g1, g2, g3, g4, g5, g6, -⟩
    · exact Or.inl h2
    · exact Or.inr ⟨nodePos, a0, a1, r, g1, g2, g3, g4, g5, g6⟩
  | user h1 _ _ =>
    rcases restartBegin_removed h1 with h2 | ⟨nodePos, a0, a1, r, g1, g2, g3, g4, g5, g6, -⟩
    · exact Or.inl h2
    · exact Or.inr ⟨nodePos, a0, a1, r, g1, g2, g3, g4, g5, g6⟩

theorem PCut.cases {s t : PState O} (h : PCut P env pe s t) : (∀ e, s.pc ≠ .raised e) ∧
    (t = s ∨ ∃ s0, PCtrl pe s s0 ∧ s0.evals = [] ∧ s0.searches = [] ∧ RestartParCut P env pe s0 t ∧
      (s0 = s ∨ ∃ o, s0 = { s with
        alg := { s.alg with opq := o, step := P.restorationStep, solveUnder := false } })) := by
  cases h with
  | eval hp _ => exact ⟨by simp [hp], Or.inl rfl⟩
  | search hp _ => exact ⟨by simp [hp], Or.inl rfl⟩
  | close hp => exact ⟨by simp [hp], Or.inl rfl⟩
  | restart hp _ _ _ hb hr =>
    have hb' : s.evals = [] ∧ s.searches = [] := by simpa [parBusy] using hb
    exact ⟨by simp [hp], Or.inr ⟨s, ⟨rfl, rfl, rfl, rfl, rfl, rfl, rfl, rfl, rfl, rfl, by simp,
          by simp [hp], by simp [hp], by simp [hp], rfl, rfl, rfl, rfl, rfl⟩, hb'.1, hb'.2, hr,
          Or.inl rfl⟩⟩
  | @restoration o1 o2 f _ hp _ _ _ hb hr =>
    have hb' : s.evals = [] ∧ s.searches = [] := by simpa [parBusy] using hb
    exact ⟨by simp [hp], Or.inr ⟨{ s with
      alg := { s.alg with opq := o2, step := P.restorationStep, solveUnder := false } }, ⟨rfl, rfl, rfl, rfl, rfl, rfl, rfl, rfl, rfl, rfl, by simp,
          by simp [hp], by simp [hp], by simp [hp], rfl, rfl, rfl, rfl, rfl⟩, hb'.1, hb'.2, hr,
          Or.inr ⟨_, rfl⟩⟩⟩

/-- Induction over reachable states. -/
theorem PReach.induct {o : O} {I : PState O → Prop} {c : PCtl} {s : PState O}
    (h : PReach P env pe o c s)
    (h0 : I { alg := Alg.init P o })
    (hctrl : ∀ s s', I s → PCtrl pe s s' → I s')
    (hcollect : ∀ s s' b j, I s → s.pc = .evals b → collectJob P env pe s j = .ok s' →
      I { s' with pc := .evals b })
    (hharvest : ∀ s s' j res, I s → s.pc = .searches → (P.twoPhase = false ∨ s.searches[j]?.map SearchJob.noisy = some true → res.ind = none) →
      harvestJob P env pe s j res = .ok s' → I { s' with pc := .searches })
    (hrestart : ∀ s s' pc, I s → s.evals = [] → s.searches = [] →
      RestartPar P env pe s (.ok s') → (pc = .model ∨ pc = .top ∨ ∃ e, pc = .raised e) →
      ∀ gap, I { s' with pc := pc, gap := gap })
    (hsubmit : ∀ (s : PState O) a rd rb noisy tag, I s → s.pc = .model → a.data = s.alg.data →
      a.itercount = s.alg.itercount → noisy = decide (s.alg.mode = .noisy) →
      I { ({ s with alg := a, rankDef := rd, refBusy := rb } : PState O).submitSearch noisy tag with
          pc := .top })
    (hclose : ∀ s s' job todo, I s → s.pc = .closing (job :: todo) → s.evals = job :: todo →
      closeJob P env pe s job = .ok s' → I { s' with pc := .closing todo })
    (hfresh : ∀ (s : PState O) pc rc gap, I s → s.evals = [] →
      (pc = .top ∨ ∃ e, pc = .raised e) → I { s.fresh with pc := pc, refCount := rc, gap := gap })
    (hret : ∀ (s : PState O) t, I s → s.pc = .done →
      I { s with alg := { s.alg with elapsed := t } })
    (hload : ∀ (s : PState O), I s → (∀ e, s.pc ≠ .raised e) →
      I s.lose)
    (hcut : ∀ (s t : PState O), I s → s.evals = [] → s.searches = [] →
      RestartParCut P env pe s t → I t.lose) :
    I s := by
  suffices key : I s ∧ (∀ todo, s.pc = .closing todo → s.evals = todo) ∧
      (s.pc = .done → s.evals = []) ∧ (c = .idle → s.evals = []) from key.1
  induction h with
  | init => exact ⟨h0, by simp, by simp, by simp⟩
  | ret _ hd ih =>
    obtain ⟨i1, i2, i3, i4⟩ := ih
    exact ⟨hret _ _ i1 hd, i2, i3, fun _ => i3 hd⟩
  | load _ hd ih =>
    obtain ⟨i1, i2, i3, i4⟩ := ih
    exact ⟨hload _ i1 hd, by simp [PState.lose, PState.fresh], by simp [PState.lose, PState.fresh],
      by simp [PState.lose, PState.fresh]⟩
  | @firstRaises s0 t _ _ _ hc ih =>
    obtain ⟨i1, i2, i3, i4⟩ := ih
    have hf := hfresh _ .top 0 ⊤ i1 (i4 rfl) (Or.inl rfl)
    exact ⟨hcut _ _ hf rfl rfl hc, by simp [PState.lose, PState.fresh],
      by simp [PState.lose, PState.fresh], by simp [PState.lose, PState.fresh]⟩
  | @raises s0 t start pause _ hc ih =>
    obtain ⟨i1, i2, i3, i4⟩ := ih
    refine ⟨?_, by simp [PState.lose, PState.fresh], by simp [PState.lose, PState.fresh],
      by simp [PState.lose, PState.fresh]⟩
    obtain ⟨hn, rfl | ⟨s1, hp, he, hs, hr, -⟩⟩ := hc.cases
    · exact hload _ i1 hn
    · exact hcut _ _ (hctrl _ _ i1 hp) he hs hr
  | call pause _ hs ih =>
    obtain ⟨i1, i2, i3, i4⟩ := ih
    have e := i4 rfl
    cases hs with
    | zeroFrequency _ => exact ⟨hfresh _ _ 0 ⊤ i1 e (Or.inr ⟨_, rfl⟩), by simp, by simp, by simp⟩
    | firstFails _ _ _ => exact ⟨hfresh _ _ 0 ⊤ i1 e (Or.inr ⟨_, rfl⟩), by simp, by simp, by simp⟩
    | first _ _ hr =>
      have hf := hfresh _ .top 0 ⊤ i1 e (Or.inl rfl)
      unfold withGap
      split
      · exact ⟨hrestart _ _ _ hf rfl rfl hr (Or.inr (Or.inr ⟨_, rfl⟩)) _, by simp, by simp, by simp⟩
      · exact ⟨hrestart _ _ _ hf rfl rfl hr (Or.inr (Or.inl rfl)) _, by simp, by simp, by simp⟩
    | @resumed _ _ =>
      rename_i s0 _ _ _
      unfold withGap
      split
      · exact ⟨hfresh s0 _ _ ⊤ i1 e (Or.inr ⟨_, rfl⟩), by simp, by simp, by simp⟩
      · exact ⟨hfresh s0 _ _ _ i1 e (Or.inl rfl), by simp, by simp, by simp⟩
  | @step s0 s1 st pa _ hs ih =>
    obtain ⟨i1, i2, i3, i4⟩ := ih
    have hc : ∀ s' : PState O, PCtrl pe s0 s' → I s' ∧
        (∀ todo, s'.pc = .closing todo → s'.evals = todo) ∧ (s'.pc = .done → s'.evals = []) ∧
        (PCtl.running st pa = .idle → s'.evals = []) := by
      intro s' hp
      exact ⟨hctrl _ s' i1 hp, (hp.evals_done i2 i3).1, (hp.evals_done i2 i3).2, by simp⟩
    have hraise : ∀ e, PCtrl pe s0 { s0 with pc := .raised e } := fun e =>
      ⟨rfl, rfl, rfl, rfl, rfl, rfl, rfl, rfl, rfl, rfl, by simp [PC.Active],
        by simp, by simp, by simp, rfl, rfl, rfl, rfl, rfl⟩
    cases hs with
    | enter hp _ =>
      exact hc _ ⟨rfl, rfl, rfl, rfl, rfl, rfl, rfl, rfl, rfl, rfl, by simp [hp, PC.Active],
        by simp, by simp, by simp, rfl, rfl, rfl, rfl, rfl⟩
    | leave hp _ =>
      refine hc _ ⟨rfl, rfl, rfl, rfl, rfl, rfl, rfl, rfl, rfl, rfl, by simp [hp, PC.Active],
        ?_, by simp, by simp, rfl, rfl, rfl, rfl, rfl⟩
      simp [hp, PC.Active]
    | @collect b j hp hj =>
      unfold PState.orRaise
      split
      · exact hc _ (hraise _)
      · rename_i s' hs'
        refine ⟨hcollect _ s' b j i1 hp hs', by simp, by simp, by simp⟩
    | @evalsDone b hp =>
      refine hc _ ⟨rfl, rfl, rfl, rfl, rfl, rfl, rfl, rfl, rfl, rfl, by simp [hp, PC.Active],
        ?_, ?_, ?_, rfl, rfl, rfl, rfl, rfl⟩ <;> (dsimp only; split <;> simp)
    | harvest j res hp hj hi _ =>
      unfold PState.orRaise
      split
      · exact hc _ (hraise _)
      · rename_i s' hs'
        exact ⟨hharvest _ s' j res i1 hp hi hs', by simp, by simp, by simp⟩
    | searchesDone hp =>
      exact hc _ ⟨rfl, rfl, rfl, rfl, rfl, rfl, rfl, rfl, rfl, rfl, by simp [hp, PC.Active],
        by simp, by simp, by simp, rfl, rfl, rfl, rfl, rfl⟩
    | full hp _ =>
      exact hc _ ⟨rfl, rfl, rfl, rfl, rfl, rfl, rfl, rfl, rfl, rfl, by simp [hp, PC.Active],
        by simp, by simp, by simp, rfl, rfl, rfl, rfl, rfl⟩
    | skip hp _ _ =>
      exact hc _ ⟨rfl, rfl, rfl, rfl, rfl, rfl, rfl, rfl, rfl, rfl, by simp [hp, PC.Active],
        by simp, by simp, by simp, rfl, rfl, rfl, rfl, rfl⟩
    | waitRestart hp _ _ _ _ =>
      exact hc _ ⟨rfl, rfl, rfl, rfl, rfl, rfl, rfl, rfl, rfl, rfl, by simp [hp, PC.Active],
        by simp, by simp, by simp, rfl, rfl, rfl, rfl, rfl⟩
    | @restart r hp _ _ _ hb hr =>
      unfold PState.orRaise
      have hb' : s0.evals = [] ∧ s0.searches = [] := by simpa [parBusy] using hb
      split
      · exact hc _ (hraise _)
      · rename_i s'
        exact ⟨hrestart _ s' .model i1 hb'.1 hb'.2 hr (Or.inl rfl) s'.gap, by simp, by simp, by simp⟩
    | noRestart hp hf _ _ =>
      refine hc _ ⟨rfl, rfl, rfl, rfl, rfl, rfl, rfl, rfl, rfl, rfl, by simp [hp, PC.Active],
        by simp, ?_, by simp, rfl, rfl, rfl, rfl, rfl⟩
      intro _
      right
      simpa [parFull] using hf
    | prepFails hp _ => exact hc _ (hraise _)
    | underdetermined hp _ _ _ _ =>
      exact hc _ ⟨rfl, rfl, rfl, rfl, rfl, rfl, rfl, rfl, rfl, rfl, by simp [hp, PC.Active],
        by simp, by simp, by simp, rfl, rfl, rfl, rfl, rfl⟩
    | noList hp _ _ _ _ => exact hc _ (hraise _)
    | waitRestoration hp _ _ _ _ =>
      exact hc _ ⟨rfl, rfl, rfl, rfl, rfl, rfl, rfl, rfl, rfl, rfl, by simp [hp, PC.Active],
        by simp, by simp, by simp, rfl, rfl, rfl, rfl, rfl⟩
    | @restoration o1 o2 f r hp _ _ _ hb hr =>
      unfold PState.orRaise
      have hb' : s0.evals = [] ∧ s0.searches = [] := by simpa [parBusy] using hb
      split
      · exact hc _ (hraise _)
      · rename_i s'
        have h1 := hctrl s0 { s0 with
          alg := { s0.alg with opq := o2, step := P.restorationStep, solveUnder := false } } i1
          ⟨rfl, rfl, rfl, rfl, rfl, rfl, rfl, rfl, rfl, rfl, by simp,
            by simp [hp], by simp [hp], by simp [hp], rfl, rfl, rfl, rfl, rfl⟩
        exact ⟨hrestart _ s' .top h1 hb'.1 hb'.2 hr (Or.inr (Or.inl rfl)) s'.gap,
          by simp, by simp, by simp⟩
    | @submit o1 o2 r1 r2 hp _ _ _ =>
      unfold PState.orRaise
      split
      · exact hc _ (hraise _)
      · rename_i s' hs'
        obtain ⟨a, rd, rb, e1, e2, rfl | ⟨noisy, tag, rfl, e3, _, _⟩⟩ := submitNext_cases hs'
        · exact hc _ ⟨e1, e2, rfl, rfl, rfl, rfl, rfl, rfl, rfl, rfl, by simp [hp, PC.Active],
            by simp, by simp, by simp, rfl, rfl, rfl, rfl, rfl⟩
        · exact ⟨hsubmit s0 a rd rb noisy tag i1 hp e1 e2 e3, by simp, by simp, by simp⟩
    | @close job todo hp =>
      unfold PState.orRaise
      split
      · exact hc _ (hraise _)
      · rename_i s' hs'
        refine ⟨hclose _ s' job todo i1 hp (i2 _ hp) hs', ?_, by simp, by simp⟩
        obtain ⟨-, -, a, gap, g, st, -, -, rfl⟩ := closeJob_cases hs'
        simp only [PState.fate, PC.closing.injEq]
        rintro _ rfl
        rw [i2 _ hp]; rfl
    | finish hp =>
      refine hc _ ⟨rfl, rfl, rfl, rfl, rfl, rfl, rfl, rfl, rfl, rfl, by simp [PC.Active],
        by simp, by simp, by simp [hp], rfl, rfl, rfl, rfl, rfl⟩

end Rbfopt
