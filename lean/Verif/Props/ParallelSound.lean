import Verif.Props.ParallelDomain
import Verif.Props.ParallelStop
import Verif.Props.Sound

/-!
# What the result of a run with several CPUs says about the true optimum (C60, C97)
-/

namespace Rbfopt

variable {O : Type} {P : Params} {env : Env O} {pe : PEnv O} {o : O}

/-- Every evaluation that counts as recorded has its value in the table of records: at the point that was
submitted, or, for an initial evaluation collected late, at the transformed point (C70). -/
def RecordedKept (env : Env O) (pe : PEnv O) (s : PState O) : Prop :=
  ∀ id, (id, Fate.recorded) ∈ s.hist → ∃ x nb tag v e, s.Returned pe id x nb tag v e ∧
    ∃ (k : ℕ) (p : Pt), s.alg.all.pos[k]? = some p ∧ s.alg.all.val[k]? = some v ∧
      (p = x ∨ (tag = .init ∧ p = env.toOrig x))

/-- Records are only appended, submissions are only appended, nothing new is recorded. -/
theorem RecordedKept.grow {s s' : PState O} (h : RecordedKept env pe s) (ha : s.alg.all.Aligned)
    (h1 : ∀ id, (id, Fate.recorded) ∈ s'.hist → (id, Fate.recorded) ∈ s.hist ∨
      ∃ x nb tag v e, s'.Returned pe id x nb tag v e ∧
        ∃ (k : ℕ) (p : Pt), s'.alg.all.pos[k]? = some p ∧ s'.alg.all.val[k]? = some v ∧
          (p = x ∨ (tag = .init ∧ p = env.toOrig x)))
    (h2 : ∃ t, s'.subs = s.subs ++ t) (h3 : ∃ t, s'.alg.all = s.alg.all.append t) :
    RecordedKept env pe s' := by
  intro id hid
  rcases h1 id hid with hh | hh
  · obtain ⟨x, nb, tag, v, e, ⟨r1, r2⟩, k, p, g1, g2, g3⟩ := h id hh
    obtain ⟨t, ht⟩ := h2
    obtain ⟨u, hu⟩ := h3
    refine ⟨x, nb, tag, v, e, ⟨?_, r2⟩, k, p, ?_, ?_, g3⟩
    · rw [ht, List.getElem?_append_left (List.getElem?_eq_some_iff.mp r1).1]
      exact r1
    · rw [hu]
      show (s.alg.all.pos ++ u.pos)[k]? = _
      rw [List.getElem?_append_left (List.getElem?_eq_some_iff.mp g1).1]
      exact g1
    · rw [hu]
      show (s.alg.all.val ++ u.val)[k]? = _
      rw [List.getElem?_append_left (List.getElem?_eq_some_iff.mp g2).1]
      exact g2
  · exact hh

theorem RecordedKept.same {s s' : PState O} (h : RecordedKept env pe s) (ha : s.alg.all.Aligned)
    (h1 : ∀ id, (id, Fate.recorded) ∈ s'.hist → (id, Fate.recorded) ∈ s.hist)
    (h2 : ∃ t, s'.subs = s.subs ++ t) (h3 : s'.alg.all = s.alg.all) : RecordedKept env pe s' :=
  h.grow ha (fun id hid => Or.inl (h1 id hid)) h2 ⟨{}, by rw [h3]; simp [Table.append]⟩

/-- The last record of a table extended by one. -/
theorem Table.last_snoc {t t' : Table} {p : Pt} {v : ℚ} {b : Bool} {e : ℚ × ℚ} (ha : t.Aligned)
    (h : t' = t.append { pos := [p], val := [v], noisy := [b], err := [e] }) :
    t'.pos[t.pos.length]? = some p ∧ t'.val[t.pos.length]? = some v := by
  subst h
  obtain ⟨a1, -, -⟩ := ha
  constructor
  · show (t.pos ++ [p])[t.pos.length]? = _
    simp
  · show (t.val ++ [v])[t.pos.length]? = _
    rw [← a1]; simp

theorem PReach.kept {c : PCtl} {s : PState O} (h : PReach P env pe o c s) (hP : P.twoPhase = false) :
    RecordedKept env pe s := by
  refine h.inductB (I := RecordedKept env pe) ?_ ?_ ?_ ?_ ?_ ?_ ?_ ?_ ?_ ?_ ?_
  · intro id hid; simp at hid
  · intro s s' hb hI hc
    refine hI.same hb.wf.allA (by rw [hc.hist]; exact fun _ h => h) ⟨[], by rw [hc.subs]; simp⟩ ?_
    exact congrArg Data.all hc.data
  · intro s s' b j hb hI hp hc
    obtain ⟨job, d, hj, hd, hcase⟩ := collectJob_cases hc
    have hmem : job ∈ s.evals := List.mem_of_getElem? hj
    rcases hcase with ⟨_, tb, rfl⟩ | ⟨_, hn, _, a, ha, rfl⟩ |
      ⟨_, gap, a, a', rc, rb, hg, hda, _, _, _, ha, _, _, rfl⟩
    · refine hI.same hb.wf.allA ?_ ⟨[], by simp [PState.fate, takeJob, PState.popTemp]⟩ rfl
      intro id hid
      rcases List.mem_append.mp hid with h | h
      · exact h
      · simp at h
    · obtain ⟨-, -, -, -, -, -, -, -, c1, -⟩ := endPass_ctl ha
      refine hI.same hb.wf.allA ?_ ⟨_, rfl⟩ c1
      intro id hid
      rcases List.mem_append.mp hid with h | h
      · exact h
      · simp at h
    · have hadd := addJob_spec (pe := pe) (env := env) s.alg job
      obtain ⟨g, st, hl⟩ := updateLog_frame (addJob pe env s.alg job) (jobResult pe job).1 gap
      rw [hl] at hda
      have d1 : a.all = (addJob pe env s.alg job).all := congrArg Data.all hda
      obtain ⟨-, -, -, -, -, -, -, -, c1, -⟩ := endPass_ctl ha
      have e1 := c1.trans (d1.trans hadd.all)
      refine hI.grow hb.wf.allA ?_ ⟨[], by simp [PState.fate, takeJob, PState.popTemp]⟩ ⟨_, e1⟩
      intro id hid
      rcases List.mem_append.mp hid with h | h
      · exact Or.inl h
      · right
        simp only [List.mem_singleton, Prod.mk.injEq, and_true] at h
        subst h
        obtain ⟨l1, l2⟩ := Table.last_snoc hb.wf.allA e1
        rcases hb.returned hmem with ⟨q1, q2⟩ | ⟨_, q1, q2⟩
        · exact ⟨_, _, _, _, _, ⟨q1, q2⟩, _, _, l1, l2, Or.inl rfl⟩
        · exact ⟨_, _, _, _, _, ⟨q1, q2⟩, _, _, l1, l2, Or.inr ⟨rfl, rfl⟩⟩
  · intro s s' j res hb hI hp hi hc
    obtain ⟨job, rd, a, tb, hj, ha, hcase⟩ := harvestJob_cases hc
    have ha' : a = s.alg := by
      rcases ha with h | ⟨_, _, h, _⟩
      · exact h
      · exact absurd (hi (Or.inl hP)) h
    subst ha'
    rcases hcase with rfl | ⟨p0, hp0, hu, ⟨b, v, hr, hre⟩ | ⟨hr, rfl⟩⟩
    · obtain ⟨nc, rc, rb, _, _, e⟩ := harvestDiscard_eq (P := P) (takeSearch s j rd s.alg tb) job.tag
      rw [e]
      exact hI.same hb.wf.allA (fun _ h => h) ⟨[], by simp [takeSearch]⟩ rfl
    · obtain ⟨a1, e, gap, a2, hadd, hz, _, hg, he, rfl⟩ := harvestReuse_cases hre
      obtain ⟨-, -, -, -, -, -, -, -, c1, -⟩ := endPass_ctl he
      obtain ⟨g, st, hl⟩ := updateLog_frame a1 v gap
      rw [hl] at c1 he
      exact hI.grow hb.wf.allA (fun _ h => Or.inl h) ⟨[], by simp [takeSearch]⟩
        ⟨_, c1.trans hadd.all⟩
    · exact hI.same hb.wf.allA (fun _ h => h) ⟨_, rfl⟩ rfl
  · intro s s' pc hb hI he hs hr _ gap
    obtain ⟨pts, noisy, o, done, rest, prev, u, calls, a, m, M, i, hp⟩ := restartPar_ok hr
    have ho := hp.install
    have hall : a.all = s.alg.all.append
      (((initTable pe (decide (s.alg.mode = .noisy)) done).append prev).append u) := ho.all
    rw [hp.eq]
    refine hI.grow hb.wf.allA ?_ ⟨_, rfl⟩ ⟨_, hall⟩
    intro id hid
    rcases List.mem_append.mp hid with h | h
    · exact Or.inl h
    · right
      obtain ⟨x, hx, hxe⟩ := List.mem_map.mp h
      simp only [Prod.mk.injEq, and_true] at hxe
      obtain ⟨k1, k2, k3, k4⟩ := initJobs_get (hp.perm.mem_iff.mp (List.mem_append_left rest hx))
      obtain ⟨n, hn⟩ := List.mem_iff_getElem?.mp hx
      have hln := (List.getElem?_eq_some_iff.mp hn).1
      refine ⟨x.pt, x.noisy, .init, (jobResult pe x).1, (jobResult pe x).2, ⟨?_, ?_⟩,
        s.alg.all.pos.length + n, x.pt, ?_, ?_, Or.inl rfl⟩
      · subst hxe
        simp only [PState.fates]
        rw [List.getElem?_append_right k1, List.getElem?_map, k2, k3]
        rfl
      · rw [← hxe]
        unfold jobResult; cases x.noisy <;> simp
      · show a.all.pos[_]? = _
        rw [hall]
        show (s.alg.all.pos ++ ((done.map _ ++ prev.pos) ++ u.pos))[_]? = _
        rw [List.getElem?_append_right (by omega), Nat.add_sub_cancel_left,
          List.append_assoc, List.getElem?_append_left (by simpa using hln), List.getElem?_map, hn]
        rfl
      · show a.all.val[_]? = _
        rw [hall]
        show (s.alg.all.val ++ ((done.map _ ++ prev.val) ++ u.val))[_]? = _
        rw [← hb.wf.allA.1]
        rw [List.getElem?_append_right (by omega), Nat.add_sub_cancel_left,
          List.append_assoc, List.getElem?_append_left (by simpa using hln), List.getElem?_map, hn]
        rfl
  · intro s a rd rb noisy tag hb hI hp hd _ hn
    exact hI.same hb.wf.allA (fun _ h => h) ⟨[], by simp [PState.submitSearch]⟩ (congrArg Data.all hd)
  · intro s s' job todo hb hI hp he hc
    obtain ⟨hn, _, a, gap, g, st, ha, _, rfl⟩ := closeJob_cases hc
    refine hI.grow hb.wf.allA ?_ ⟨[], by simp [PState.fate]⟩ ⟨_, ha.all⟩
    intro id hid
    rcases List.mem_append.mp hid with h | h
    · exact Or.inl h
    · right
      simp only [List.mem_singleton, Prod.mk.injEq, and_true] at h
      subst h
      have hv : pe.acc job.id = (jobResult pe job).1 := by simp [jobResult, hn]
      obtain ⟨l1, l2⟩ := Table.last_snoc hb.wf.allA ha.all
      rw [hv] at l2
      rcases hb.returned (show job ∈ s.evals by rw [he]; simp) with ⟨q1, q2⟩ | ⟨_, q1, q2⟩
      · exact ⟨_, _, _, _, _, ⟨q1, q2⟩, _, _, l1, l2, Or.inl rfl⟩
      · exact ⟨_, _, _, _, _, ⟨q1, q2⟩, _, _, l1, l2, Or.inr ⟨rfl, rfl⟩⟩
  · intro s pc rc gap hb hI _ _
    exact hI.same hb.wf.allA (fun _ h => h) ⟨[], by simp [PState.fresh]⟩ rfl
  · intro s t hb hI _
    exact hI
  · intro s hb hI _
    refine hI.same hb.wf.allA ?_ ⟨[], by simp [PState.fresh, PState.lose]⟩ rfl
    intro id hid
    rcases List.mem_append.mp hid with h | h
    · exact h
    · obtain ⟨x, _, hx⟩ := List.mem_map.mp h
      cases hx
  · intro s t hb hI _ _ hc
    obtain ⟨pts, noisy, o, rfl, hm, -⟩ := hc.frame
    refine hI.same hb.wf.allA ?_ ⟨_, rfl⟩ rfl
    intro id hid
    rcases List.mem_append.mp hid with h | h
    · exact h
    · obtain ⟨x, _, hx⟩ := List.mem_map.mp h
      cases hx

variable {c : PCtl} {s : PState O}

/-- **C60** (without `evaluate_noisy`) The value of an evaluation that was recorded is in the table of
records from then on, for every schedule: no later step loses it. -/
theorem C60_recorded_is_kept (hP : P.twoPhase = false) (h : PReach P env pe o c s) {id : ℕ}
    (hid : (id, Fate.recorded) ∈ s.hist) :
    ∃ x tag, s.subs[id]? = some (x, false, tag) ∧ ∃ (k : ℕ) (p : Pt),
      s.alg.all.pos[k]? = some p ∧ s.alg.all.val[k]? = some (pe.acc id) ∧
        (p = x ∨ (tag = .init ∧ p = env.toOrig x)) := by
  obtain ⟨x, nb, tag, v, e, ⟨r1, r2⟩, k, p, g1, g2, g3⟩ := h.kept hP id hid
  have hnb : nb = false := (h.single hP).subs _ (List.mem_of_getElem? r1)
  subst hnb
  have r2' : pe.acc id = v := by simpa using r2.1
  exact ⟨x, tag, r1, k, p, g1, by rw [g2, r2'], g3⟩

/-- In the run that led to the state `s` the black box computed the function `f`: the evaluations submitted to
workers returned the value of `f` at their points, the evaluations of the user's points by the main
process too, and the values given by the user are those of `f`. -/
structure PComputes (P : Params) (env : Env O) (pe : PEnv O) (s : PState O) (eps : ℚ) (vars : List Var)
    (f : Pt → ℚ) : Prop where
  workers : ∀ id x tag, s.subs[id]? = some (x, false, tag) → FeasibleUser eps vars (env.decode x) →
    pe.acc id = f (env.decode x)
  main : ∀ x v, Call.acc x v ∈ s.alg.log → FeasibleUser eps vars x → v = f x
  user : ∀ p v, UserGave P p v → v = f (env.decode p)

/-- The conditions of `C17_parallel_feasible`. -/
structure ParRun (P : Params) (env : Env O) (pe : PEnv O) (eps : ℚ) (vars : List Var) (sc : Scaling) : Prop where
  wellFormed : WellFormed vars
  runs : RunsOn P env eps vars sc
  scaling : sc = .off ∨ (construct eps vars).intVars = []
  proposes : ∀ p, pe.proposes p → Proposable (construct eps vars) p
  samples : SamplesIn env (FeasibleInternal (construct eps vars))
  init : ∀ p ∈ P.initPos, FeasibleInternal (construct eps vars) p

variable {eps : ℚ} {vars : List Var} {sc : Scaling} {f : Pt → ℚ}

/-- Every value with a source is a value of `f` at a feasible point. -/
theorem PSource.attained (hP : P.twoPhase = false) (hc : ParRun P env pe eps vars sc)
    (hf : PComputes P env pe s eps vars f) (h : PReach P env pe o c s) {p : Pt} {v : ℚ} {b : Bool}
    (hs : PSource P env pe s p v b) : ∃ x, FeasibleUser eps vars x ∧ f x = v := by
  obtain ⟨h1, h2⟩ := C17_parallel_feasible hc.wellFormed hc.runs hc.scaling (fun h => by rw [hP] at h; cases h)
    hc.proposes hc.samples hc.init h
  have hret : ∀ {id x nb tag v e}, s.Returned pe id x nb tag v e → ∃ x, FeasibleUser eps vars x ∧ f x = v := by
    rintro id x nb tag v e ⟨r1, r2⟩
    have hnb : nb = false := (h.single hP).subs _ (List.mem_of_getElem? r1)
    subst hnb
    have hx := h1 _ (List.mem_of_getElem? r1)
    refine ⟨_, hx, ?_⟩
    rw [← hf.workers id x tag r1 hx]
    simpa using r2.1
  have hdec : ∀ p ∈ P.initPos, FeasibleUser eps vars (env.decode p) := by
    intro p hp
    rw [hc.runs.decode]
    exact ((C30_bijection (eps := eps) hc.wellFormed).2 p (hc.init p hp)).1
  induction hs with
  | job _ a2 _ => exact hret a2
  | late _ a2 => exact hret a2
  | userEval a1 a2 => exact ⟨_, hdec _ a1, (hf.main _ _ a2 (hdec _ a1)).symm⟩
  | userVal i a1 a2 =>
    exact ⟨_, hdec _ (List.mem_of_getElem? a1), (hf.user _ _ ⟨i, a1, a2⟩).symm⟩
  | near _ _ ih => exact ih

/-- **C97** (parallel) For a black box without `evaluate_noisy()` that computes a function `f`: whatever the
order in which the workers answer, the value returned by `optimize()` is the value of `f` at a feasible
point of the user's problem, is never below a lower bound of `f`, and is at most the value of `f` at
every point whose evaluation was recorded. -/
theorem C97_parallel_value_is_attained (hP : P.twoPhase = false) (hc : ParRun P env pe eps vars sc)
    (hf : PComputes P env pe s eps vars f) (h : PReach P env pe o c s) {r : OptResult O}
    (hr : optimizeReturn s.alg = .ret r) :
    (∃ x, FeasibleUser eps vars x ∧ f x = r.value) ∧
    (∀ m, (∀ x, FeasibleUser eps vars x → m ≤ f x) → m ≤ r.value) ∧
    (∀ id, (id, Fate.recorded) ∈ s.hist → ∃ x tag, s.subs[id]? = some (x, false, tag) ∧
      FeasibleUser eps vars (env.decode x) ∧ r.value ≤ f (env.decode x)) := by
  obtain ⟨b1, ⟨i, b2, b3⟩, -⟩ := C01_parallel_returns_best_record hr
  obtain ⟨a1, a2, a3⟩ := h.book.wf.allA
  have hlt := (List.getElem?_eq_some_iff.mp b2).1
  have hsrc := C60_records_genuine h i _ _ _ _ b2 b3
    (List.getElem?_eq_getElem (show i < s.alg.all.noisy.length by omega))
    (List.getElem?_eq_getElem (show i < s.alg.all.err.length by omega))
  obtain ⟨x, hx, hv⟩ := PSource.attained hP hc hf h hsrc
  refine ⟨⟨x, hx, hv⟩, fun m hm => by rw [← hv]; exact hm x hx, ?_⟩
  intro id hid
  obtain ⟨y, tag, g1, k, p, _, g3, _⟩ := C60_recorded_is_kept hP h hid
  have hy := (C17_parallel_feasible hc.wellFormed hc.runs hc.scaling
    (fun h => by rw [hP] at h; cases h) hc.proposes hc.samples hc.init h).1 _ (List.mem_of_getElem? g1)
  refine ⟨y, tag, g1, hy, ?_⟩
  rw [← hf.workers id y tag g1 hy]
  exact b1 _ (List.mem_of_getElem? g3)

/-- No limit made the parallel call end. -/
def ParNoLimit (P : Params) (env : Env O) (pe : PEnv O) (o : O) (s0 : PState O) (pause : ℕ) (s : PState O) :
    Prop :=
  s.alg.itercount < s0.alg.itercount + pause ∧ s.alg.itercount < P.maxIter ∧ s.alg.evalcount < P.maxEval ∧
  ((s.alg.evalcount : ℚ) : EVal) < P.searchSpace ∧ s.alg.cyc < (P.maxCycles : ℤ) ∧
  ∀ t : PState O, CallReach P env pe o s0 pause t → ((env.clock t.alg : ℚ) : EVal) < P.maxClock

/-- **C97** (parallel) If no limit ended the call, and the target is within `tol` of a lower bound `m` of `f`
over the feasible points, then the value returned is within `tol + eps_opt` (relative to the target, if
that is not tiny) of `m`. -/
theorem C97_parallel_success_is_near_optimal (hP : P.twoPhase = false) (hz : 0 < P.epsZero)
    (hc : ParRun P env pe eps vars sc) (hf : PComputes P env pe s eps vars f) {s0 : PState O} {pause : ℕ}
    (h : CallReach P env pe o s0 pause s) (hd : s.pc = .done) {r : OptResult O}
    (hr : optimizeReturn s.alg = .ret r) (hlim : ParNoLimit P env pe o s0 pause s) {m tol : ℚ}
    (hmin : ∀ x, FeasibleUser eps vars x → m ≤ f x) (htol : P.target ≤ m + tol) :
    m ≤ r.value ∧
      r.value ≤ m + tol + P.epsOpt * (if P.epsZero ≤ |P.target| then |P.target| else 1) := by
  refine ⟨(C97_parallel_value_is_attained hP hc hf h.reach hr).2.1 m hmin, ?_⟩
  obtain ⟨l1, l2, l3, l4, l5, l6⟩ := hlim
  rcases C12_parallel_stop_reason hP hz h hd with g | g | g | g | g | ⟨t, g1, _, g2⟩ | ⟨v, g1, g2⟩
  · omega
  · omega
  · omega
  · exact absurd l4 (not_lt.mpr g)
  · omega
  · exact absurd (l6 t g1) (not_lt.mpr g2)
  · have := (C01_parallel_returns_best_record hr).1 v g1
    unfold TargetReached at g2
    linarith

end Rbfopt
