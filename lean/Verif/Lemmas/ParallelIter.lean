import Verif.Lemmas.ParallelBest

/-! # Iteration and evaluation counts of the parallel engine -/

namespace Rbfopt

variable {O : Type} {P : Params} {env : Env O} {pe : PEnv O}

/-- Number of results a worker may still deliver for these evaluations: a noisy evaluation may be
repeated in accurate mode. -/
def evalWeight (l : List EvalJob) : ℕ := (l.map (fun x => 1 + x.noisy.toNat)).sum

theorem evalWeight_le (l : List EvalJob) : evalWeight l ≤ 2 * l.length := by
  unfold evalWeight
  induction l with
  | nil => simp
  | cons x l ih =>
    have : x.noisy.toNat ≤ 1 := Bool.toNat_le x.noisy
    simp only [List.map_cons, List.sum_cons, List.length_cons]; omega

theorem le_evalWeight (l : List EvalJob) : l.length ≤ evalWeight l := by
  unfold evalWeight
  induction l with
  | nil => simp
  | cons x l ih => simp only [List.map_cons, List.sum_cons, List.length_cons]; omega

theorem evalWeight_perm {l l' : List EvalJob} (h : l.Perm l') : evalWeight l = evalWeight l' :=
  (h.map _).sum_eq

theorem evalWeight_cons (x : EvalJob) (l : List EvalJob) :
    evalWeight (x :: l) = 1 + x.noisy.toNat + evalWeight l := by simp [evalWeight]

theorem evalWeight_snoc (x : EvalJob) (l : List EvalJob) :
    evalWeight (l ++ [x]) = evalWeight l + (1 + x.noisy.toNat) := by simp [evalWeight]

/-- Invariant about the iteration counter. -/
def IterInv (M B : ℕ) (s : PState O) : Prop :=
  match s.pc with
  | .top => s.alg.itercount + s.evals.length + s.searches.length ≤ M + 2 * B
  | .evals b => b ≤ M ∧ b ≤ s.alg.itercount ∧
      s.alg.itercount + evalWeight s.evals + s.searches.length ≤ M + 2 * B
  | .searches | .submit => s.alg.itercount + s.evals.length + s.searches.length ≤ M + B
  | .model => s.alg.itercount ≤ M + B ∧
      s.alg.itercount + s.evals.length + s.searches.length < M + 2 * B
  | .closing _ => s.alg.itercount + s.evals.length ≤ M + 2 * B
  | .done => s.alg.itercount ≤ M + 2 * B
  | .raised _ => True

theorem restart_counts {N : ℕ} (hN : ∀ a pts o, env.initNodes a = .ok (pts, o) → pts.length ≤ N)
    {s s' : PState O} (h : RestartPar P env pe s (.ok s')) :
    s'.evals.length ≤ N ∧ s'.left = s'.evals.length ∧ s'.searches = s.searches ∧
    s'.alg.itercount = s.alg.itercount ∧
    s'.alg.evalcount ≤ s.alg.evalcount + (N + P.initPos.length) := by
  obtain ⟨pts, noisy, o, done, rest, prev, u, calls, a, m, M, i, hp⟩ := restartPar_ok h
  have ho := hp.install
  have hlen := hp.perm.length_eq
  rw [List.length_append, initJobs_length] at hlen
  have hpts : pts.length ≤ N := by
    rcases hp.sample with ⟨_, _, rfl, _⟩ | ⟨nodePos, a0, h1, _, h2, _⟩
    · simp
    · have := hN _ _ _ h1; omega
  have hev : a.evalcount = s.alg.evalcount + (if noisy then 0 else pts.length) + countAcc calls :=
    ho.ev
  have hit : a.itercount = s.alg.itercount := ho.itercount
  have hu := hp.uLe.2
  rw [hp.eq]
  refine ⟨?_, rfl, rfl, hit, ?_⟩
  · simp only [PState.fates]; omega
  · show a.evalcount ≤ _
    rw [hev]; split <;> omega

theorem PReach.left_le {o : O} {c : PCtl} {s : PState O} {N : ℕ} (h : PReach P env pe o c s)
    (hN : ∀ a pts o, env.initNodes a = .ok (pts, o) → pts.length ≤ N) : s.left ≤ N := by
  refine h.inductB (I := fun s => s.left ≤ N) (by simp) ?_ ?_ ?_ ?_ ?_ ?_ ?_ ?_ ?_ ?_
  · intro s s' _ hI hc; rw [hc.left]; exact hI
  · intro s s' b j _ hI _ hc
    obtain ⟨job, d, _, _, ⟨_, tb, rfl⟩ | ⟨_, _, _, a, _, rfl⟩ |
      ⟨_, gap, a, a', rc, rb, _, _, _, _, _, _, _, _, rfl⟩⟩ := collectJob_cases hc <;> exact hI
  · intro s s' j res _ hI _ _ hc
    obtain ⟨job, rd, a, tb, hj, ha, rfl | ⟨p0, hp0, hu, ⟨b, v, hr, hre⟩ | ⟨hr, rfl⟩⟩⟩ :=
      harvestJob_cases hc
    · obtain ⟨nc, rc, rb, _, _, e⟩ := harvestDiscard_eq (P := P) (takeSearch s j rd a tb) job.tag
      rw [e]; exact hI
    · obtain ⟨a1, e, gap, a2, hadd, hz, _, hg, he, rfl⟩ := harvestReuse_cases hre
      exact hI
    · exact hI
  · intro s s' pc _ hI _ _ hr _ gap
    obtain ⟨h1, h2, _⟩ := restart_counts hN hr
    show s'.left ≤ N
    omega
  · exact fun s a _ _ _ _ _ hI _ _ _ _ => hI
  · intro s s' job todo _ hI _ _ hc
    obtain ⟨hn, hne, a, gap, g, st, ha, _, rfl⟩ := closeJob_cases hc
    exact hI
  · intro s pc rc gap _ _ _ _; simp [PState.fresh]
  · exact fun s t _ hI _ => hI
  · intro s _ _ _; simp [PState.lose, PState.fresh]
  · intro s t _ _ _ _ _; simp [PState.lose, PState.fresh]

theorem parCond_true {start pause : ℕ} {s : PState O} (h : parCond P env start pause s = true) :
    s.alg.itercount < P.maxIter ∧ s.alg.itercount < start + pause ∧
      s.alg.evalcount < P.maxEval := by
  unfold parCond loopCond at h
  simp only [decide_eq_true_eq] at h
  obtain ⟨h1, h2, h3, -⟩ := h
  exact ⟨h2, by omega, h3⟩

theorem harvest_counts {s s' : PState O} {j : ℕ} {res : SearchRes}
    (hc : harvestJob P env pe s j res = .ok s') :
    s'.searches.length + 1 = s.searches.length ∧
    s'.alg.itercount + s'.evals.length ≤ s.alg.itercount + s.evals.length + 1 ∧
    s'.alg.evalcount ≤ s.alg.evalcount + 1 := by
  obtain ⟨job, rd, a, tb, hj, ha, hcase⟩ := harvestJob_cases hc
  have hlen := takeSearch_len hj
  have ha' : a.itercount = s.alg.itercount ∧ a.evalcount = s.alg.evalcount := by
    rcases ha with rfl | ⟨_, _, _, _, _, hr⟩
    · exact ⟨rfl, rfl⟩
    · obtain ⟨_, _, rfl⟩ := removeNode_spec hr
      exact ⟨rfl, rfl⟩
  rcases hcase with rfl | ⟨p0, hp0, hu, ⟨b, v, hr, hre⟩ | ⟨hr, rfl⟩⟩
  · obtain ⟨nc, rc, rb, _, _, e⟩ := harvestDiscard_eq (P := P) (takeSearch s j rd a tb) job.tag
    rw [e]
    simp only [takeSearch]
    omega
  · obtain ⟨a1, e, gap, a2, hadd, hz, _, hg, he, rfl⟩ := harvestReuse_cases hre
    obtain ⟨c0, -, -, -, -, -, -, -, -, -, c3, -⟩ := endPass_ctl he
    obtain ⟨g, st, hl⟩ := updateLog_frame a1 v gap
    rw [hl] at c0 c3
    have e1 : a1.itercount = a.itercount := hadd.ctl.1
    have e2 : a1.evalcount = a.evalcount := hadd.rest.2.1
    simp only [takeSearch]
    simp only at c0 c3
    omega
  · simp only [harvestSubmit, PState.submitEval, PState.pushTemp, takeSearch, List.length_append,
      List.length_singleton]
    split <;> omega

theorem collect_counts {s s' : PState O} {j : ℕ} (hc : collectJob P env pe s j = .ok s') :
    s'.searches = s.searches ∧ s.alg.itercount ≤ s'.alg.itercount ∧
    s'.alg.itercount + evalWeight s'.evals ≤ s.alg.itercount + evalWeight s.evals ∧
    (s'.alg.itercount = s.alg.itercount → s'.alg.evalcount = s.alg.evalcount) ∧
    s'.alg.evalcount + evalWeight s'.evals ≤ s.alg.evalcount + evalWeight s.evals := by
  obtain ⟨job, d, hj, hd, hcase⟩ := collectJob_cases hc
  have hw := evalWeight_perm (perm_take hj)
  rw [evalWeight_cons] at hw
  rcases hcase with ⟨_, tb, rfl⟩ | ⟨_, hn, _, a, ha, rfl⟩ |
    ⟨_, gap, a, a', rc, rb, hg, hda, e1, _, _, ha, _, _, rfl⟩
  · simp only [PState.fate, takeJob, PState.popTemp]
    exact ⟨trivial, le_refl _, by omega, fun _ => trivial, by omega⟩
  · obtain ⟨c0, -, -, -, -, -, -, -, -, -, c3, -⟩ := endPass_ctl ha
    simp only at c0 c3
    rw [hn] at hw
    simp only [collectRepeat, PState.submitEval, PState.pushTemp, PState.fate, takeJob,
      PState.popTemp, evalWeight_snoc]
    simp only [Bool.toNat_true, Bool.toNat_false] at hw ⊢
    refine ⟨trivial, ?_⟩
    omega
  · obtain ⟨c0, -, -, -, -, -, -, -, -, -, c3, -⟩ := endPass_ctl ha
    have hadd := addJob_spec (pe := pe) (env := env) s.alg job
    obtain ⟨g, st, hl⟩ := updateLog_frame (addJob pe env s.alg job) (jobResult pe job).1 gap
    rw [hl] at hda
    have d3 : a.evalcount = (addJob pe env s.alg job).evalcount := congrArg Data.evalcount hda
    rw [hadd.rest.2.1] at d3
    simp only [PState.fate, takeJob, PState.popTemp]
    refine ⟨trivial, ?_⟩
    omega

/-- After the main loop the list of evaluations to be added is the list of outstanding ones. -/
theorem PReach.closing_evals {o : O} {c : PCtl} {s : PState O} {todo : List EvalJob}
    (h : PReach P env pe o c s) : s.pc = .closing todo → s.evals = todo := by
  refine h.induct (I := fun s => s.pc = .closing todo → s.evals = todo) (by simp) ?_ (by simp)
    (by simp) ?_ (by simp) ?_ ?_ (fun s t h _ => h) (by simp [PState.lose, PState.fresh])
    (by simp [PState.lose, PState.fresh])
  · intro s s' _ hc hp
    rw [hc.evals]; exact (hc.closing _ hp).2.symm
  · rintro s s' pc _ _ _ _ (rfl | rfl | ⟨e, rfl⟩) gap <;> simp
  · intro s s' job todo' _ _ he hc
    obtain ⟨hn, hne, a, gap, g, st, ha, _, rfl⟩ := closeJob_cases hc
    rintro hp
    simp only [PState.fate, PC.closing.injEq] at hp ⊢
    rw [he, List.tail_cons, hp]
  · rintro s pc rc gap _ _ (rfl | ⟨e, rfl⟩) <;> simp

/-- Invariant about the number of accurate evaluations: `E` is the bound checked by the loop, `R` how
many one restart may add. -/
def EvalInv (E B R : ℕ) (s : PState O) : Prop :=
  match s.pc with
  | .evals b => b ≤ s.alg.itercount ∧ (s.alg.itercount = b → s.alg.evalcount ≤ E) ∧
      s.alg.evalcount + evalWeight s.evals ≤ E + 2 * B
  | .searches | .submit => s.alg.evalcount + s.searches.length ≤ E + B
  | .model => s.alg.evalcount ≤ E + B + R
  | .top | .closing _ | .done => s.alg.evalcount ≤ E + 2 * B + 2 * R
  | .raised _ => True

theorem IterInv.step {o : O} {start pause N : ℕ} {s s' : PState O}
    (hN : ∀ a pts o, env.initNodes a = .ok (pts, o) → pts.length ≤ N)
    (hr : PReach P env pe o (.running start pause) s)
    (h : IterInv (max start (min P.maxIter (start + pause) - 1)) (max pe.numCpus (N + 1)) s)
    (hs : PStep P env pe start pause s s') :
    IterInv (max start (min P.maxIter (start + pause) - 1)) (max pe.numCpus (N + 1)) s' := by
  have hb := hr.book.bound
  have hl := hr.left_le hN
  generalize hM : max start (min P.maxIter (start + pause) - 1) = M at h ⊢
  generalize hB : max pe.numCpus (N + 1) = B at h ⊢
  have hB1 : 1 ≤ B := by omega
  have hNB : N + 1 ≤ B := by omega
  have hout : s.evals.length + s.searches.length ≤ B := by omega
  have hcase : ∀ (r : Except PyErr (PState O)) (pc : PC),
      (∀ s1, r = .ok s1 → IterInv M B ({ s1 with pc := pc } : PState O)) →
      IterInv M B (s.orRaise pc r) := by
    intro r pc hh
    unfold PState.orRaise
    split
    · trivial
    · exact hh _ rfl
  cases hs with
  | enter hp hc =>
    obtain ⟨c1, c2, _⟩ := parCond_true hc
    have := evalWeight_le s.evals
    simp only [IterInv]
    omega
  | leave hp hc =>
    simp only [IterInv, hp] at h ⊢
    omega
  | @collect b j hp hj =>
    refine hcase _ _ (fun s1 hs1 => ?_)
    obtain ⟨e1, e2, e3, -, -⟩ := collect_counts hs1
    simp only [IterInv, hp] at h ⊢
    rw [e1]
    omega
  | @evalsDone b hp =>
    simp only [IterInv, hp] at h
    have := le_evalWeight s.evals
    by_cases hlt : b < s.alg.itercount
    · simp only [IterInv, if_pos hlt]; omega
    · simp only [IterInv, if_neg hlt]; omega
  | harvest j res hp hj hi _ =>
    refine hcase _ _ (fun s1 hs1 => ?_)
    obtain ⟨e1, e2, -⟩ := harvest_counts hs1
    simp only [IterInv, hp] at h ⊢
    omega
  | searchesDone hp => simp only [IterInv, hp] at h ⊢; exact h
  | full hp _ => simp only [IterInv, hp] at h ⊢; omega
  | skip hp _ _ => simp only [IterInv, hp] at h ⊢; simp only [advanceStep]; omega
  | waitRestart hp _ _ _ _ => simp only [IterInv, hp] at h ⊢; omega
  | @restart r hp _ _ _ hbz hr' =>
    refine hcase _ _ (fun s1 hs1 => ?_)
    subst hs1
    obtain ⟨e1, e2, e3, e4, _⟩ := restart_counts hN hr'
    have hb' : s.evals = [] ∧ s.searches = [] := by simpa [parBusy] using hbz
    simp only [IterInv, hp] at h ⊢
    rw [e3, e4, hb'.2]
    simp only [List.length_nil]
    omega
  | noRestart hp hf _ _ =>
    simp only [IterInv, hp] at h ⊢
    omega
  | prepFails hp _ => trivial
  | underdetermined hp _ _ _ _ => simp only [IterInv, hp] at h ⊢; omega
  | noList hp _ _ _ _ => trivial
  | waitRestoration hp _ _ _ _ => simp only [IterInv, hp] at h ⊢; omega
  | @restoration o1 o2 f r hp _ _ _ hbz hr' =>
    refine hcase _ _ (fun s1 hs1 => ?_)
    subst hs1
    obtain ⟨e1, e2, e3, e4, _⟩ := restart_counts hN hr'
    have hb' : s.evals = [] ∧ s.searches = [] := by simpa [parBusy] using hbz
    simp only [IterInv, hp] at h ⊢
    simp only at e3 e4
    rw [e3, e4, hb'.2]
    simp only [List.length_nil]
    omega
  | @submit o1 o2 r1 r2 hp _ _ _ =>
    refine hcase _ _ (fun s1 hs1 => ?_)
    simp only [IterInv, hp] at h
    obtain ⟨a, rd, rb, e1, e2, rfl | ⟨noisy, tag, rfl, _, _⟩⟩ := submitNext_cases hs1
    · simp only at e2
      simp only [IterInv, e2]; omega
    · simp only at e2
      simp only [IterInv, PState.submitSearch, e2, List.length_append, List.length_singleton]; omega
  | @close job todo hp =>
    refine hcase _ _ (fun s1 hs1 => ?_)
    have hev : s.evals = job :: todo := hr.closing_evals hp
    obtain ⟨hn, hne, a, gap, g, st, ha, _, rfl⟩ := closeJob_cases hs1
    simp only [IterInv, hp] at h ⊢
    simp only [PState.fate, hev, List.tail_cons]
    rw [hev, List.length_cons] at h
    omega
  | finish hp =>
    simp only [IterInv, hp] at h ⊢
    omega

theorem EvalInv.step {o : O} {start pause N E0 : ℕ} {s s' : PState O}
    (hN : ∀ a pts o, env.initNodes a = .ok (pts, o) → pts.length ≤ N)
    (hr : PReach P env pe o (.running start pause) s)
    (h : EvalInv (max E0 (P.maxEval - 1)) (max pe.numCpus (N + 1)) (N + P.initPos.length) s)
    (hs : PStep P env pe start pause s s') :
    EvalInv (max E0 (P.maxEval - 1)) (max pe.numCpus (N + 1)) (N + P.initPos.length) s' := by
  have hb := hr.book.bound
  have hl := hr.left_le hN
  generalize hM : max E0 (P.maxEval - 1) = E at h ⊢
  generalize hB : max pe.numCpus (N + 1) = B at h ⊢
  have hout : s.evals.length + s.searches.length ≤ B := by omega
  have hcase : ∀ (r : Except PyErr (PState O)) (pc : PC),
      (∀ s1, r = .ok s1 → EvalInv E B (N + P.initPos.length) ({ s1 with pc := pc } : PState O)) →
      EvalInv E B (N + P.initPos.length) (s.orRaise pc r) := by
    intro r pc hh
    unfold PState.orRaise
    split
    · trivial
    · exact hh _ rfl
  cases hs with
  | enter hp hc =>
    obtain ⟨c1, c2, c3⟩ := parCond_true hc
    have := evalWeight_le s.evals
    simp only [EvalInv]
    exact ⟨le_refl _, fun _ => by omega, by omega⟩
  | leave hp hc => simp only [EvalInv, hp] at h ⊢; exact h
  | @collect b j hp hj =>
    refine hcase _ _ (fun s1 hs1 => ?_)
    obtain ⟨e1, e2, e3, e4, e5⟩ := collect_counts hs1
    simp only [EvalInv, hp] at h ⊢
    refine ⟨by omega, fun hi => ?_, by omega⟩
    have hsame : s1.alg.itercount = s.alg.itercount := by omega
    rw [e4 hsame]
    exact h.2.1 (by omega)
  | @evalsDone b hp =>
    simp only [EvalInv, hp] at h
    by_cases hlt : b < s.alg.itercount
    · simp only [EvalInv, if_pos hlt]; omega
    · simp only [EvalInv, if_neg hlt]
      have := h.2.1 (by omega)
      omega
  | harvest j res hp hj hi _ =>
    refine hcase _ _ (fun s1 hs1 => ?_)
    obtain ⟨e1, e2, e3⟩ := harvest_counts hs1
    simp only [EvalInv, hp] at h ⊢
    omega
  | searchesDone hp => simp only [EvalInv, hp] at h ⊢; exact h
  | full hp _ => simp only [EvalInv, hp] at h ⊢; omega
  | skip hp _ _ => simp only [EvalInv, hp] at h ⊢; simp only [advanceStep]; omega
  | waitRestart hp _ _ _ _ => simp only [EvalInv, hp] at h ⊢; omega
  | @restart r hp _ _ _ hbz hr' =>
    refine hcase _ _ (fun s1 hs1 => ?_)
    subst hs1
    obtain ⟨e1, e2, e3, e4, e5⟩ := restart_counts hN hr'
    simp only [EvalInv, hp] at h ⊢
    omega
  | noRestart hp hf _ _ => simp only [EvalInv, hp] at h ⊢; omega
  | prepFails hp _ => trivial
  | underdetermined hp _ _ _ _ => simp only [EvalInv, hp] at h ⊢; omega
  | noList hp _ _ _ _ => trivial
  | waitRestoration hp _ _ _ _ => simp only [EvalInv, hp] at h ⊢; omega
  | @restoration o1 o2 f r hp _ _ _ hbz hr' =>
    refine hcase _ _ (fun s1 hs1 => ?_)
    subst hs1
    obtain ⟨e1, e2, e3, e4, e5⟩ := restart_counts hN hr'
    simp only [EvalInv, hp] at h ⊢
    simp only at e5
    omega
  | @submit o1 o2 r1 r2 hp _ _ _ =>
    refine hcase _ _ (fun s1 hs1 => ?_)
    simp only [EvalInv, hp] at h
    obtain ⟨a, rd, rb, e1, e2, rfl | ⟨noisy, tag, rfl, _, _⟩⟩ := submitNext_cases hs1
    · have e3 : a.evalcount = s.alg.evalcount := congrArg Data.evalcount e1
      simp only [EvalInv, e3]; omega
    · have e3 : a.evalcount = s.alg.evalcount := congrArg Data.evalcount e1
      simp only [EvalInv, PState.submitSearch, e3]; omega
  | @close job todo hp =>
    refine hcase _ _ (fun s1 hs1 => ?_)
    obtain ⟨hn, hne, a, gap, g, st, ha, _, rfl⟩ := closeJob_cases hs1
    have e3 : a.evalcount = s.alg.evalcount := ha.rest.2.1
    simp only [EvalInv, hp] at h ⊢
    simp only [PState.fate, e3]
    omega
  | finish hp => simp only [EvalInv, hp] at h ⊢; exact h

theorem CallReach.reach {o : O} {s0 s : PState O} {pause : ℕ} (h : CallReach P env pe o s0 pause s) :
    PReach P env pe o (.running s0.alg.itercount pause) s := by
  induction h with
  | start h1 h2 => exact .call pause h1 h2
  | step _ hs ih => exact .step ih hs

theorem start_counts {N : ℕ} (hN : ∀ a pts o, env.initNodes a = .ok (pts, o) → pts.length ≤ N)
    {s0 s : PState O} (h : PStart P env pe s0 s) :
    (∃ e, s.pc = .raised e) ∨ (s.pc = .top ∧ s.alg.itercount = s0.alg.itercount ∧
      s.evals.length + s.searches.length ≤ N ∧
      s.alg.evalcount ≤ s0.alg.evalcount + (N + P.initPos.length)) := by
  cases h with
  | zeroFrequency _ => exact Or.inl ⟨_, rfl⟩
  | firstFails _ _ _ => exact Or.inl ⟨_, rfl⟩
  | first _ _ hr =>
    obtain ⟨e1, e2, e3, e4, e5⟩ := restart_counts hN hr
    unfold withGap
    split
    · exact Or.inl ⟨_, rfl⟩
    · refine Or.inr ⟨rfl, e4, ?_, e5⟩
      simp only [e3]
      simpa [PState.fresh] using e1
  | resumed _ _ =>
    unfold withGap
    split
    · exact Or.inl ⟨_, rfl⟩
    · exact Or.inr ⟨rfl, rfl, by simp [PState.fresh], by simp [PState.fresh]⟩

theorem CallReach.iter {o : O} {s0 s : PState O} {pause N : ℕ}
    (hN : ∀ a pts o, env.initNodes a = .ok (pts, o) → pts.length ≤ N)
    (h : CallReach P env pe o s0 pause s) :
    IterInv (max s0.alg.itercount (min P.maxIter (s0.alg.itercount + pause) - 1))
      (max pe.numCpus (N + 1)) s := by
  induction h with
  | start h1 h2 =>
    rcases start_counts hN h2 with ⟨e, he⟩ | ⟨h3, h4, h5, _⟩
    · unfold IterInv; rw [he]; trivial
    · unfold IterInv; rw [h3]; dsimp only; omega
  | step h1 hs ih => exact IterInv.step hN h1.reach ih hs

theorem CallReach.evalc {o : O} {s0 s : PState O} {pause N : ℕ}
    (hN : ∀ a pts o, env.initNodes a = .ok (pts, o) → pts.length ≤ N)
    (h : CallReach P env pe o s0 pause s) :
    EvalInv (max s0.alg.evalcount (P.maxEval - 1)) (max pe.numCpus (N + 1))
      (N + P.initPos.length) s := by
  induction h with
  | start h1 h2 =>
    rcases start_counts hN h2 with ⟨e, he⟩ | ⟨h3, h4, h5, h6⟩
    · unfold EvalInv; rw [he]; trivial
    · unfold EvalInv; rw [h3]; dsimp only; omega
  | step h1 hs ih => exact EvalInv.step hN h1.reach ih hs

end Rbfopt
