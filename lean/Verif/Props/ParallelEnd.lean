import Verif.Props.Parallel

/-!
# The end of a parallel call (C63), limits (C73), refinement (C71), missing model lists (C72)
-/

namespace Rbfopt

variable {O : Type} {P : Params} {env : Env O} {pe : PEnv O} {o : O} {c : PCtl} {s s' : PState O}

/-! ## C63: shutdown -/

/-- The records of the accurate evaluations `todo`. -/
def closingTable (env : Env O) (pe : PEnv O) (todo : List EvalJob) : Table :=
  { pos := todo.map (fun x => env.toOrig x.pt), val := todo.map (fun x => pe.acc x.id)
    noisy := todo.map (fun _ => false), err := todo.map (fun _ => (0, 0)) }

/-- **C63** When the main loop has ended with the evaluations `todo` outstanding, and the call returns,
then all of them were accurate, exactly one record was added for each, in order of submission, at the
point that was evaluated and with the value it returned, and one iteration was counted for each. -/
theorem C63_shutdown_records_all {start pause : ℕ} {todo : List EvalJob} (hp : s.pc = .closing todo)
    (h : Relation.ReflTransGen (PStep P env pe start pause) s s') (hd : s'.pc = .done) :
    (∀ x ∈ todo, x.noisy = false) ∧
    s'.alg.all = s.alg.all.append (closingTable env pe todo) ∧
    s'.hist = s.hist ++ todo.map (fun x => (x.id, Fate.recorded)) ∧
    s'.alg.itercount = s.alg.itercount + todo.length ∧
    s'.alg.evalcount = s.alg.evalcount := by
  induction h using Relation.ReflTransGen.head_induction_on generalizing todo with
  | refl => rw [hp] at hd; cases hd
  | @head s s1 hs hrest ih =>
    cases hs with
    | @close job todo' hp' =>
      rw [hp] at hp'
      cases hp'
      cases hc : closeJob P env pe s job with
      | error e =>
        rw [hc] at hrest
        exfalso
        have hr : ∀ t, Relation.ReflTransGen (PStep P env pe start pause) t s' →
            (∃ e, t.pc = .raised e) → ∃ e, s'.pc = .raised e := by
          intro t ht
          induction ht using Relation.ReflTransGen.head_induction_on with
          | refl => exact id
          | head hst _ _ =>
            rintro ⟨e, he⟩
            exfalso
            cases hst <;> simp_all
        obtain ⟨e', he'⟩ := hr _ hrest ⟨e, rfl⟩
        rw [hd] at he'; cases he'
      | ok s2 =>
        obtain ⟨hn, hne, a, gap, g, st, ha, _, rfl⟩ := closeJob_cases hc
        rw [hc] at ih hrest
        obtain ⟨i1, i2, i3, i4, i5⟩ := ih (todo := todo') rfl
        have e1 := ha.all
        refine ⟨?_, ?_, ?_, ?_, ?_⟩
        · intro x hx
          rcases List.mem_cons.mp hx with rfl | hx
          · exact hn
          · exact i1 x hx
        · rw [i2]
          simp only [PState.orRaise, PState.fate, e1, closingTable, Table.append, List.map_cons,
            List.append_assoc, List.singleton_append]
        · rw [i3]
          simp [PState.orRaise, PState.fate]
        · rw [i4]
          simp only [PState.orRaise, PState.fate, List.length_cons]
          omega
        · rw [i5]
          simp only [PState.orRaise, PState.fate]
          exact ha.rest.2.1
    | finish hp' =>
      rw [hp] at hp'
      cases hp'
      rcases hrest.cases_head with h0 | ⟨s2, h2, _⟩
      · rw [← h0]
        simp [closingTable, Table.append]
      · exfalso; cases h2 <;> simp_all
    | _ => simp_all

/-- **C63** When a call has returned, nothing is outstanding: every evaluation ever submitted has
exactly one fate (recorded, skipped as too close, repeated accurately, or lost in a crash). -/
theorem C63_nothing_outstanding (h : PReach P env pe o c s) (hd : s.pc = .done) :
    s.evals = [] ∧ (s.hist.map (fun x => x.1)).Perm (List.range s.subs.length) := by
  have he : s.evals = [] := by
    refine h.induct (I := fun s => (∀ todo, s.pc = .closing todo → s.evals = todo) ∧
      (s.pc = .done → s.evals = [])) (by simp) ?_ (by simp)
      (by simp) ?_ (by simp) ?_ ?_ (fun s t h _ => h) (by simp [PState.lose, PState.fresh])
      (by simp [PState.lose, PState.fresh]) |>.2 hd
    · intro s s' hI hc
      exact hc.evals_done hI.1 hI.2
    · rintro s s' pc _ _ _ _ (rfl | rfl | ⟨e, rfl⟩) gap <;> simp
    · intro s s' job todo' _ _ he hc
      obtain ⟨hn, hne, a, gap, g, st, ha, _, rfl⟩ := closeJob_cases hc
      refine ⟨fun todo hp => ?_, by simp⟩
      simp only [PState.fate, PC.closing.injEq] at hp ⊢
      rw [he, List.tail_cons, hp]
    · rintro s pc rc gap _ _ (rfl | ⟨e, rfl⟩) <;> simp
  refine ⟨he, ?_⟩
  have := C60_every_submission_accounted h
  rwa [he, List.map_nil, List.nil_append] at this

/-- **C63** (violation) If a noisy evaluation is outstanding when the main loop ends, the call never
returns normally: the run ends with an exception. -/
theorem C63_violated_noisy {start pause : ℕ} {todo : List EvalJob} (hp : s.pc = .closing todo)
    {x : EvalJob} (hx : x ∈ todo) (hn : x.noisy = true)
    (h : Relation.ReflTransGen (PStep P env pe start pause) s s') : s'.pc ≠ .done := by
  intro hd
  have := (C63_shutdown_records_all hp h hd).1 x hx
  rw [hn] at this; cases this

/-- There are nodes whenever a call is running, and between calls after the first iteration. -/
theorem PReach.nonempty (hP : P.twoPhase = false) (h : PReach P env pe o c s) :
    (c ≠ .idle → (∃ e, s.pc = .raised e) ∨ s.alg.cur.pos ≠ []) ∧
    (c = .idle → s.alg.itercount = 0 ∨ s.alg.cur.pos ≠ []) := by
  induction h with
  | init => simp [Alg.init]
  | @call s s' pause h0 hs ih =>
    refine ⟨fun _ => ?_, by simp⟩
    cases hs with
    | zeroFrequency _ => exact Or.inl ⟨_, rfl⟩
    | firstFails _ _ _ => exact Or.inl ⟨_, rfl⟩
    | first _ _ hr =>
      obtain ⟨pts, noisy, o, done, rest, prev, u, calls, a, m, M, i, hp⟩ := restartPar_ok hr
      right
      have h1 := hp.install.cur
      have h2 := hp.install.two_le
      have h3 : ∀ {q : PState O}, (withGap P q).alg = q.alg := by
        intro q; unfold withGap; split <;> rfl
      rw [h3, hp.eq]
      show a.cur.pos ≠ []
      rw [h1]
      intro h0
      have := congrArg List.length h0
      simp only [List.length_map, List.length_nil] at this
      omega
    | resumed _ hi =>
      rcases ih.2 rfl with h1 | h1
      · exact absurd h1 hi
      · right
        unfold withGap; split <;> exact h1
  | @step s s' start pause h0 hs ih =>
    refine ⟨fun _ => ?_, by simp⟩
    rcases ih.1 (by simp) with ⟨e, he⟩ | hne
    · exfalso; cases hs <;> simp_all
    · right
      cases hs.kind with
      | ctrl hc => rw [show s'.alg.cur = s.alg.cur from congrArg Data.cur hc.data]; exact hne
      | collect _ hc e =>
        subst e
        obtain ⟨job, _, ⟨_, h1, _⟩ | ⟨_, _, _, h1, _⟩⟩ := collect_records hc
        · simp only [h1]; exact hne
        · simp only [h1, Table.append]; simp
      | @harvest j res s1 _ hi _ hc e =>
        subst e
        obtain ⟨job, rd, a, tb, hj, ha, hcase⟩ := harvestJob_cases hc
        have ha' : a = s.alg := by
          rcases ha with h | ⟨_, _, h, _⟩
          · exact h
          · exact absurd (hi (Or.inl hP)) h
        subst ha'
        rcases hcase with rfl | ⟨p0, hp0, hu, ⟨b, v, hr, hre⟩ | ⟨hr, rfl⟩⟩
        · obtain ⟨nc, rc, rb, _, _, e⟩ :=
            harvestDiscard_eq (P := P) (takeSearch s j rd s.alg tb) job.tag
          rw [e]; exact hne
        · obtain ⟨a1, e, gap, a2, hadd, hz, _, hg, he, rfl⟩ := harvestReuse_cases hre
          obtain ⟨-, -, -, -, -, -, -, c0, -⟩ := endPass_ctl he
          obtain ⟨g, st, hl⟩ := updateLog_frame a1 v gap
          rw [hl] at c0
          have c1 : a2.cur = a1.cur := c0
          show a2.cur.pos ≠ []
          rw [c1, hadd.cur]
          simp [Table.append]
        · exact hne
      | restart hc _ _ hr _ e =>
        subst e
        obtain ⟨pts, noisy, o, done, rest, prev, u, calls, a, m, M, i, hp⟩ := restartPar_ok hr
        have h1 := hp.install.cur
        have h2 := hp.install.two_le
        rw [hp.eq]
        show a.cur.pos ≠ []
        rw [h1]
        intro h0
        have := congrArg List.length h0
        simp only [List.length_map, List.length_nil] at this
        omega
      | @submit a _ _ _ _ _ hd' _ _ _ _ e =>
        subst e
        have h1 : a.cur = s.alg.cur := congrArg Data.cur hd'
        show a.cur.pos ≠ []
        rw [h1]
        exact hne
      | close _ hc e =>
        subst e
        obtain ⟨hn, hne', a, gap, g, st, ha, _, rfl⟩ := closeJob_cases hc
        show a.cur.pos ≠ []
        rw [ha.cur]
        simp [Table.append]
  | ret h0 hp ih =>
    refine ⟨by simp, fun _ => Or.inr ?_⟩
    rcases ih.1 (by simp) with ⟨e, he⟩ | h1
    · rw [hp] at he; cases he
    · exact h1
  | load h0 hp ih =>
    refine ⟨by simp, fun _ => Or.inr ?_⟩
    rcases ih.1 (by simp) with ⟨e, he⟩ | h1
    · exact absurd he (hp e)
    · exact h1
  | raises h0 hc ih =>
    refine ⟨by simp, fun _ => Or.inr ?_⟩
    obtain ⟨hn, hcase⟩ := hc.cases
    rcases ih.1 (by simp) with ⟨e, he⟩ | h1
    · exact absurd he (hn e)
    · rcases hcase with rfl | ⟨s1, hp, -, -, hr, -⟩
      · exact h1
      · obtain ⟨pts, noisy, o, rfl, -, -⟩ := hr.frame
        show s1.alg.cur.pos ≠ []
        rw [show s1.alg.cur = _ from congrArg Data.cur hp.data]
        exact h1
  | firstRaises h0 _ hi hr ih =>
    refine ⟨by simp, fun _ => Or.inl ?_⟩
    obtain ⟨pts, noisy, o, rfl, -, -⟩ := hr.frame
    exact hi

/-- **C63** (black boxes without `evaluate_noisy`) Once the main loop has ended, the call does return:
the remaining steps never raise an exception. -/
theorem C63_shutdown_completes (hP : P.twoPhase = false) {start pause : ℕ} {todo : List EvalJob}
    (h : PReach P env pe o (.running start pause) s) (hp : s.pc = .closing todo) :
    ∃ s', Relation.ReflTransGen (PStep P env pe start pause) s s' ∧ s'.pc = .done := by
  induction todo generalizing s with
  | nil => exact ⟨{ s with pc := .done }, .single (.finish hp), rfl⟩
  | cons job todo ih =>
    have hne : s.alg.cur.pos ≠ [] := by
      rcases (h.nonempty hP).1 (by simp) with ⟨e, he⟩ | h1
      · rw [hp] at he; cases he
      · exact h1
    have hj : job.noisy = false :=
      (h.single hP).job h.book (by rw [h.closing_evals hp]; exact List.mem_cons_self)
    have hok : ∃ s1, closeJob P env pe s job = .ok s1 := by
      unfold closeJob
      cases hd : getMinDistance env.dist job.pt s.alg.cur.pos with
      | none =>
        exfalso
        simp only [getMinDistance, getMinDistanceAndIndex, Option.map_eq_none_iff] at hd
        exact hne (List.map_eq_nil_iff.mp (argminVal_none.mp hd))
      | some d =>
        simp only [hj, Bool.false_eq_true, if_false]
        have hadd := addNode_spec s.alg job.pt (env.toOrig job.pt) (pe.acc job.id)
        have hb := BestOK.add hadd h.book.wf.curA h.book.wf.allA hne (h.best hP)
        have hw : PTabs s.cut env (addNode s.alg job.pt (env.toOrig job.pt) (pe.acc job.id)) :=
          h.book.wf.add hadd
        obtain ⟨gap, hg⟩ : ∃ gap, currentGap P
            (addNode s.alg job.pt (env.toOrig job.pt) (pe.acc job.id)) = .ok gap := by
          rcases hb with hb | ⟨f, b, M, -, -, -, -, e5, -⟩
          · exfalso
            have h1 := hb.2.1
            rw [hadd.cur] at h1
            have := congrArg (fun t : Table => t.pos.length) h1
            simp [Table.append] at this
          · have h1 := (List.getElem?_eq_some_iff.mp e5.1).1
            obtain ⟨a1, -, a3⟩ := hw.allA
            unfold currentGap
            rw [List.getElem?_eq_getElem (show _ < _ by omega)]
            exact ⟨_, rfl⟩
        rw [hg]
        exact ⟨_, rfl⟩
    obtain ⟨s1, hs1⟩ := hok
    have hstep : PStep P env pe start pause s { s1 with pc := .closing todo } := by
      have := PStep.close (P := P) (env := env) (pe := pe) (start := start) (pause := pause) hp
      rw [hs1] at this
      exact this
    obtain ⟨s2, h2, h3⟩ := ih (h.step hstep) rfl
    exact ⟨s2, .head hstep h2, h3⟩

/-! ## C73: limits -/

/-- **C73** If at most `N` initial points are generated, a parallel call exceeds the iteration limits
by less than `2·max(num_cpus, N+1)`. -/
theorem C73_iteration_overshoot {s0 : PState O} {pause N : ℕ}
    (hN : ∀ a pts o, env.initNodes a = .ok (pts, o) → pts.length ≤ N)
    (h : CallReach P env pe o s0 pause s) (hd : s.pc = .done) :
    s.alg.itercount ≤ max s0.alg.itercount (min P.maxIter (s0.alg.itercount + pause) - 1) +
      2 * max pe.numCpus (N + 1) := by
  have := h.iter hN
  simpa only [IterInv, hd] using this

/-- **C73** The accurate evaluations exceed the limit by at most `2·max(num_cpus, N+1)` for the
outstanding work plus the samples of two restarts. -/
theorem C73_evaluation_overshoot {s0 : PState O} {pause N : ℕ}
    (hN : ∀ a pts o, env.initNodes a = .ok (pts, o) → pts.length ≤ N)
    (h : CallReach P env pe o s0 pause s) (hd : s.pc = .done) :
    s.alg.evalcount ≤ max s0.alg.evalcount (P.maxEval - 1) + 2 * max pe.numCpus (N + 1) +
      2 * (N + P.initPos.length) := by
  have := h.evalc hN
  simpa only [EvalInv, hd] using this

/-- **C73** The limits are observed when new work is started: at the top of the main loop a call only
continues if no limit has been reached. -/
theorem C73_limits_checked {start pause : ℕ} (hs : PStep P env pe start pause s s')
    (ht : s.pc = .top) (hne : ∀ todo, s'.pc ≠ .closing todo) :
    s.alg.itercount < P.maxIter ∧ s.alg.itercount < start + pause ∧ s.alg.evalcount < P.maxEval := by
  cases hs with
  | enter _ hc => exact parCond_true hc
  | leave _ _ => exact absurd rfl (hne _)
  | _ => simp_all

/-! ## C71: refinement steps in parallel -/

/-- Number of refinement searches and evaluations in progress. -/
def PState.refJobs (s : PState O) : ℕ :=
  s.evals.countP (fun x => x.tag == .ref) + s.searches.countP (fun x => x.tag == .ref)

theorem countP_eraseIdx {α : Type} (q : α → Bool) {l : List α} {j : ℕ} {x : α} (h : l[j]? = some x) :
    (l.eraseIdx j).countP q + (q x).toNat = l.countP q := by
  obtain ⟨h1, h2⟩ := List.getElem?_eq_some_iff.mp h
  have := (List.getElem_cons_eraseIdx_perm h1).countP_eq q
  rw [h2, List.countP_cons] at this
  rw [← this]
  cases q x <;> simp

/-- How a step changes the refinement bookkeeping. -/
theorem StepKind.refine (h : StepKind P env pe s s') :
    (s'.refBusy = s.refBusy ∧ s'.refJobs ≤ s.refJobs) ∨
    (s'.refBusy = false ∧ s'.refJobs + 1 ≤ s.refJobs) ∨
    (s.refBusy = false ∧ s'.refBusy = true ∧ s'.refJobs = s.refJobs + 1) := by
  cases h with
  | ctrl hc => left; exact ⟨hc.refBusy, by simp [PState.refJobs, hc.evals, hc.searches]⟩
  | collect _ hc e =>
    subst e
    obtain ⟨job, d, hj, _, ⟨_, tb, rfl⟩ | ⟨_, hn, _, a, _, rfl⟩ |
      ⟨_, gap, a, a', rc, rb, _, _, _, _, _, _, hrb, hrb', rfl⟩⟩ := collectJob_cases hc
    all_goals have hcnt := countP_eraseIdx (fun x : EvalJob => x.tag == Tag.ref) hj
    · left
      refine ⟨rfl, ?_⟩
      simp only [PState.refJobs, PState.fate, takeJob, PState.popTemp]
      omega
    · left
      refine ⟨rfl, ?_⟩
      simp only [PState.refJobs, collectRepeat, PState.fate, PState.pushTemp, PState.submitEval,
        takeJob, PState.popTemp, List.countP_append, List.countP_singleton]
      cases ht : (job.tag == Tag.ref) <;> simp_all <;> omega
    · by_cases ht : job.tag = .ref
      · right; left
        refine ⟨hrb ht, ?_⟩
        simp only [PState.refJobs, PState.fate, takeJob, PState.popTemp]
        simp only [ht, beq_self_eq_true, Bool.toNat_true] at hcnt
        omega
      · left
        refine ⟨hrb' ht, ?_⟩
        simp only [PState.refJobs, PState.fate, takeJob, PState.popTemp]
        omega
  | @harvest j res s1 _ hi _ hc e =>
    subst e
    obtain ⟨job, rd, a, tb, hj, ha, hcase⟩ := harvestJob_cases hc
    have hcnt := countP_eraseIdx (fun x : SearchJob => x.tag == Tag.ref) hj
    rcases hcase with rfl | ⟨p0, hp0, hu, ⟨b, v, hr, hre⟩ | ⟨hr, rfl⟩⟩
    · obtain ⟨nc, rc, rb, h1, h2, e⟩ := harvestDiscard_eq (P := P) (takeSearch s j rd a tb) job.tag
      rw [e]
      by_cases ht : job.tag = .ref
      · right; left
        refine ⟨h1 ht, ?_⟩
        simp only [PState.refJobs, takeSearch]
        simp only [ht, beq_self_eq_true, Bool.toNat_true] at hcnt
        omega
      · left
        refine ⟨(h2 ht).1, ?_⟩
        simp only [PState.refJobs, takeSearch]
        omega
    · obtain ⟨a1, e, gap, a2, hadd, hz, _, hg, he, rfl⟩ := harvestReuse_cases hre
      left
      refine ⟨rfl, ?_⟩
      simp only [PState.refJobs, takeSearch]
      omega
    · left
      refine ⟨rfl, ?_⟩
      have htag : (harvestTag job.tag res == Tag.ref) = (job.tag == Tag.ref) := by
        unfold harvestTag
        split
        · rename_i h; rw [h]; split <;> rfl
        · rfl
      simp only [PState.refJobs, harvestSubmit, PState.pushTemp, PState.submitEval, takeSearch,
        List.countP_append, List.countP_singleton, htag]
      cases ht : (job.tag == Tag.ref) <;> simp_all <;> omega
  | restart hc he hs hr _ e =>
    subst e
    obtain ⟨pts, noisy, o, done, rest, prev, u, calls, a, m, M, i, hp⟩ := restartPar_ok hr
    left
    rw [hp.eq]
    refine ⟨hc.refBusy, ?_⟩
    have h1 : rest.countP (fun x : EvalJob => x.tag == Tag.ref) = 0 := by
      rw [List.countP_eq_zero]
      intro x hx
      have hx' := hp.perm.subset (List.mem_append_right done hx)
      rw [(initJobs_get hx').2.2.2]
      decide
    simp only [PState.refJobs, PState.fates, hc.searches, hs, h1]
    simp
  | @submit a rd rb noisy tag _ _ _ _ h1 h2 e =>
    subst e
    by_cases ht : tag = .ref
    · right; right
      obtain ⟨h3, h4⟩ := h1 ht
      refine ⟨h3, h4, ?_⟩
      simp [PState.refJobs, PState.submitSearch, ht]
      omega
    · left
      refine ⟨h2 ht, ?_⟩
      simp [PState.refJobs, PState.submitSearch, ht]
  | close _ hc e =>
    subst e
    obtain ⟨hn, hne, a, gap, g, st, ha, _, rfl⟩ := closeJob_cases hc
    left
    refine ⟨rfl, ?_⟩
    simp only [PState.refJobs, PState.fate]
    have := (List.tail_sublist s.evals).countP_le (p := fun x : EvalJob => x.tag == Tag.ref)
    omega

/-- **C71** At most one refinement step is in progress at any time, for every schedule, and none unless
the engine remembers it. -/
theorem C71_one_refinement_at_a_time (h : PReach P env pe o c s) :
    s.refJobs ≤ s.refBusy.toNat := by
  have hfr : ∀ q : PState O, q.evals = [] → q.searches = [] → q.refJobs ≤ q.refBusy.toNat := by
    intro q h1 h2; simp [PState.refJobs, h1, h2]
  have hw : ∀ q : PState O, q.refJobs ≤ q.refBusy.toNat →
      (withGap P q).refJobs ≤ (withGap P q).refBusy.toNat := by
    intro q hq; unfold withGap; split <;> exact hq
  induction h with
  | init => simp [PState.refJobs]
  | @call s0 _ pause h0 hs ih =>
    cases hs with
    | zeroFrequency _ => exact hfr _ rfl rfl
    | firstFails _ _ _ => exact hfr _ rfl rfl
    | @first s1 _ _ hr =>
      apply hw
      have hk : StepKind P env pe s0.fresh { s1 with pc := .top } :=
        .restart (s0 := s0.fresh) ⟨rfl, rfl, rfl, rfl, rfl, rfl, rfl, rfl, rfl, rfl, id,
          by simp [PState.fresh], by simp [PState.fresh], by simp [PState.fresh], rfl, rfl, rfl, rfl,
          rfl⟩
          rfl rfl hr (Or.inr rfl) rfl
      have h1 := hk.refine
      have h2 : s0.fresh.refJobs = 0 := by simp [PState.refJobs, PState.fresh]
      have h3 : s0.fresh.refBusy = false := rfl
      rw [h2, h3] at h1
      have e1 : ({ s1 with pc := .top } : PState O).refJobs = s1.refJobs := rfl
      rw [e1] at h1
      rcases h1 with ⟨h1, h4⟩ | ⟨h1, h4⟩ | ⟨h1, h4, h5⟩
      · omega
      · omega
      · dsimp only at h4; rw [h4, h5]; simp
    | resumed _ _ => apply hw; exact hfr _ rfl rfl
  | step _ hs ih =>
    rcases hs.kind.refine with ⟨h1, h2⟩ | ⟨h1, h2⟩ | ⟨h1, h2, h3⟩
    · rw [h1]; omega
    · have := Bool.toNat_le (_ : Bool) |>.trans' ih
      omega
    · rw [h1] at ih
      rw [h2]
      simp at ih ⊢
      omega
  | ret _ _ ih => exact ih
  | load _ _ _ => exact hfr _ rfl rfl
  | raises _ _ _ => exact hfr _ rfl rfl
  | firstRaises _ _ _ _ _ => exact hfr _ rfl rfl

/-- The engine believes that a refinement step is in progress, but there is none. -/
def PState.RefBlocked (s : PState O) : Prop := s.refBusy = true ∧ s.refJobs = 0

/-- **C71** (violation) Once blocked, no refinement step is started for the rest of the call. -/
theorem C71_blocked_forever {start pause : ℕ} (hb : s.RefBlocked)
    (h : Relation.ReflTransGen (PStep P env pe start pause) s s') : s'.RefBlocked := by
  induction h with
  | refl => exact hb
  | tail _ hs ih =>
    obtain ⟨i1, i2⟩ := ih
    rcases hs.kind.refine with ⟨h1, h2⟩ | ⟨h1, h2⟩ | ⟨h1, h2, h3⟩
    · exact ⟨by rw [h1]; exact i1, by omega⟩
    · omega
    · rw [i1] at h1; cases h1

/-- **C71** (violation) If the point of a refinement step turns out to be too close to a node when its
evaluation is collected, refinement is blocked. -/
theorem C71_skipped_evaluation_blocks (h : PReach P env pe o c s) {j : ℕ} {job : EvalJob}
    (hj : s.evals[j]? = some job) (ht : job.tag = .ref) {d : ℚ}
    (hd : getMinDistance env.dist job.pt s.alg.cur.pos = some d) (hle : d ≤ P.minDist)
    (hc : collectJob P env pe s j = .ok s') : s'.RefBlocked := by
  have hinv := C71_one_refinement_at_a_time h
  have hcnt := countP_eraseIdx (fun x : EvalJob => x.tag == Tag.ref) hj
  simp only [ht, beq_self_eq_true, Bool.toNat_true] at hcnt
  have hbusy : s.refBusy = true := by
    cases hb : s.refBusy with
    | true => rfl
    | false => rw [hb] at hinv; simp only [PState.refJobs, Bool.toNat_false] at hinv; omega
  rw [hbusy] at hinv
  obtain ⟨job', d', hj', hd', ⟨_, tb, rfl⟩ | ⟨hlt, -⟩ | ⟨hlt, -⟩⟩ := collectJob_cases hc
  · rw [hj] at hj'
    cases hj'
    refine ⟨hbusy, ?_⟩
    simp only [PState.refJobs, PState.fate, takeJob, PState.popTemp, Bool.toNat_true] at hinv ⊢
    omega
  · rw [hj] at hj'; cases hj'
    rw [hd] at hd'; cases hd'
    exact absurd hle (not_le.mpr hlt)
  · rw [hj] at hj'; cases hj'
    rw [hd] at hd'; cases hd'
    exact absurd hle (not_le.mpr hlt)

/-- **C71** (violation) If the value at the point of a refinement step is copied from an old record,
refinement is blocked as well. -/
theorem C71_reused_value_blocks (h : PReach P env pe o c s) {j : ℕ} {job : SearchJob}
    (hj : s.searches[j]? = some job) (ht : job.tag = .ref) {res : SearchRes} {p : Pt} {b : Bool} {v : ℚ}
    (hn : res.next = some p)
    (hu : harvestUsable P env s (clipPt p P.lLower P.lUpper) = some true)
    (hr : reusePar P env s.alg (env.toOrig (clipPt p P.lLower P.lUpper)) job.noisy = some (b, v))
    (hc : harvestJob P env pe s j res = .ok s') : s'.RefBlocked := by
  have hinv := C71_one_refinement_at_a_time h
  have hcnt := countP_eraseIdx (fun x : SearchJob => x.tag == Tag.ref) hj
  simp only [ht, beq_self_eq_true, Bool.toNat_true] at hcnt
  have hbusy : s.refBusy = true := by
    cases hb : s.refBusy with
    | true => rfl
    | false => rw [hb] at hinv; simp only [PState.refJobs, Bool.toNat_false] at hinv; omega
  rw [hbusy] at hinv
  unfold harvestJob at hc
  rw [hj] at hc
  have hu' : harvestUsable P env
      { s with searches := s.searches.eraseIdx j, refData := (res.modelImpr, res.toReplace) }
      (clipPt p P.lLower P.lUpper) = some true := hu
  simp only [ht, if_true, reduceCtorEq, if_false, hn, hu', hr] at hc
  obtain ⟨a1, e, gap, a2, hadd, hz, _, hg, he, rfl⟩ := harvestReuse_cases hc
  refine ⟨hbusy, ?_⟩
  simp only [PState.refJobs, Bool.toNat_true] at hinv ⊢
  omega

end Rbfopt
