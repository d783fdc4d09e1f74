import Verif.Lemmas.RestartCalls
import Verif.Spec.Parallel
import Verif.Lemmas.Invariants
import Verif.Lemmas.ControlInv

/-! # Case analysis of the actions of the parallel engine -/

namespace Rbfopt

variable {O : Type} {P : Params} {env : Env O} {pe : PEnv O}

theorem mainUpdates_ok {s s' : PState O} (h : mainUpdates P s = .ok s') :
    ∃ a, endPass P s.alg = .ok a ∧ s' = { s with alg := a } := by
  unfold mainUpdates at h
  split at h
  · cases h
  · rename_i a ha; cases h; exact ⟨a, ha, rfl⟩

theorem refContinuePar_frame {s s' : Alg O} {t : ℕ} {b : Bool}
    (h : refContinuePar P env s t b = .ok s') :
    s'.data = s.data ∧ s'.itercount = s.itercount ∧ s'.step = s.step ∧
    s'.cyc = s.cyc ∧ s'.solveUnder = s.solveUnder := by
  unfold refContinuePar at h
  split at h
  · cases h; exact ⟨rfl, rfl, rfl, rfl, rfl⟩
  · split at h
    · split at h
      · cases h
      · split at h <;> · cases h; exact ⟨rfl, rfl, rfl, rfl, rfl⟩
    · cases h

theorem refAccept_frame {s s' : Alg O} {mv : Bool} {t r t' : ℕ}
    (h : refAccept env s mv t r = .ok (s', t')) :
    s'.data = s.data ∧ s'.itercount = s.itercount ∧ s'.step = s.step ∧
    s'.cyc = s.cyc ∧ s'.solveUnder = s.solveUnder := by
  unfold refAccept at h
  split at h
  · split at h
    · cases h
    · split at h
      · split at h
        · cases h
        · cases h; exact ⟨rfl, rfl, rfl, rfl, rfl⟩
      · cases h
  · cases h; exact ⟨rfl, rfl, rfl, rfl, rfl⟩

theorem refinementUpdatePar_frame {s s' : Alg O} {a b : ℚ} {t : ℕ} {rd : Bool}
    (h : refinementUpdatePar P env s a b t rd = .ok s') :
    s'.data = s.data ∧ s'.itercount = s.itercount ∧ s'.step = s.step ∧
    s'.cyc = s.cyc ∧ s'.solveUnder = s.solveUnder := by
  unfold refinementUpdatePar at h
  dsimp only at h
  split at h
  · cases h
  · split at h
    · cases h
    · rename_i s1 t1 h1
      obtain ⟨a1, a2, a3, a4, a5⟩ := refAccept_frame h1
      split at h
      · cases h
      · rename_i s2 h2
        obtain ⟨b1, b2, b3, b4, b5⟩ := refContinuePar_frame h2
        cases h
        split
        · exact ⟨b1.trans a1, b2.trans a2, b3.trans a3, b4.trans a4, b5.trans a5⟩
        · exact ⟨b1.trans a1, b2.trans a2, b3.trans a3, b4.trans a4, b5.trans a5⟩

theorem collectRefine_cases {s s' : PState O} {tag : Tag} {v : ℚ}
    (h : collectRefine P env s tag v = .ok s') :
    ∃ a rc rb, a.data = s.alg.data ∧ a.itercount = s.alg.itercount ∧ a.step = s.alg.step ∧
      (a.cyc = s.alg.cyc ∧ a.solveUnder = s.alg.solveUnder) ∧ s' = { s with alg := a, refCount := rc, refBusy := rb } ∧
      (tag = .ref → rb = false) ∧ (tag ≠ .ref → rb = s.refBusy ∧ a = s.alg) := by
  unfold collectRefine at h
  split at h
  · rename_i ht
    split at h
    · cases h
    · split at h
      · cases h
      · rename_i a ha
        cases h
        obtain ⟨h1, h2, h3, h4, h5⟩ := refinementUpdatePar_frame ha
        exact ⟨a, _, _, h1, h2, h3, ⟨h4, h5⟩, rfl, fun _ => rfl, fun h => absurd ht h⟩
  · rename_i ht
    cases h
    exact ⟨s.alg, s.refCount, s.refBusy, rfl, rfl, rfl, ⟨rfl, rfl⟩, rfl, fun h => absurd h ht,
      fun _ => ⟨rfl, rfl⟩⟩

/-- The object after a finished evaluation was added. -/
def addJob (pe : PEnv O) (env : Env O) (a : Alg O) (job : EvalJob) : Alg O :=
  if job.noisy then
    addNoisyNode a job.pt (env.toOrig job.pt) (jobResult pe job).1 (jobResult pe job).2.1
      (jobResult pe job).2.2
  else addNode a job.pt (env.toOrig job.pt) (jobResult pe job).1

theorem addJob_spec (a : Alg O) (job : EvalJob) :
    AddOut a (addJob pe env a job) job.pt (env.toOrig job.pt) (jobResult pe job).1 job.noisy
      ((jobResult pe job).2.1, (jobResult pe job).2.2) := by
  unfold addJob
  cases hn : job.noisy
  · have : (jobResult pe job).2 = (0, 0) := by simp [jobResult, hn]
    simp only [Bool.false_eq_true, if_false, this]
    exact addNode_spec _ _ _ _
  · exact addNoisyNode_spec _ _ _ _ _ _

theorem addNode_solveUnder (s : Alg O) (p orig : Pt) (v : ℚ) :
    (addNode s p orig v).solveUnder = s.solveUnder := by
  unfold addNode
  dsimp only
  split <;> split <;> rfl

theorem addNoisyNode_solveUnder (s : Alg O) (p orig : Pt) (v el eu : ℚ) :
    (addNoisyNode s p orig v el eu).solveUnder = s.solveUnder := by
  unfold addNoisyNode
  dsimp only
  split <;> split <;> rfl

theorem addJob_solveUnder (a : Alg O) (job : EvalJob) :
    (addJob pe env a job).solveUnder = a.solveUnder := by
  unfold addJob
  split
  · exact addNoisyNode_solveUnder _ _ _ _ _ _
  · exact addNode_solveUnder _ _ _ _

/-- What happens to a finished evaluation. -/
theorem collectJob_cases {s s' : PState O} {j : ℕ} (h : collectJob P env pe s j = .ok s') :
    ∃ job d, s.evals[j]? = some job ∧ getMinDistance env.dist job.pt s.alg.cur.pos = some d ∧
      (((d ≤ P.minDist ∨ (job.noisy = true ∧ job.pt ∈ s.tabu)) ∧
        ∃ tb, s' = ({ takeJob pe s j job with tabu := tb } : PState O).fate job.id .skipped) ∨
       (P.minDist < d ∧ job.noisy = true ∧
        requireAccurate P s.alg ((jobResult pe job).1 + (jobResult pe job).2.1) = true ∧
        ∃ a, endPass P { s.alg with evalcount := s.alg.evalcount + 1 } = .ok a ∧
          s' = { collectRepeat env (takeJob pe s j job) job (jobResult pe job).1 with alg := a }) ∨
       (P.minDist < d ∧ ∃ gap a a' rc rb,
          currentGap P (addJob pe env s.alg job) = .ok gap ∧
          a.data = (updateLog (addJob pe env s.alg job) (jobResult pe job).1 gap).data ∧
          a.itercount = s.alg.itercount ∧ a.step = s.alg.step ∧
          (a.cyc = s.alg.cyc ∧ a.solveUnder = s.alg.solveUnder) ∧ endPass P a = .ok a' ∧ (job.tag = .ref → rb = false) ∧
          (job.tag ≠ .ref → rb = s.refBusy) ∧
          s' = ({ takeJob pe s j job with alg := a', gap := gap, refCount := rc
                                          refBusy := rb } : PState O).fate job.id .recorded)) := by
  unfold collectJob at h
  split at h
  · cases h
  · rename_i job hj
    dsimp only at h
    split at h
    · cases h
    · rename_i d hd
      refine ⟨job, d, hj, hd, ?_⟩
      split at h
      · rename_i hle
        cases h
        exact Or.inl ⟨Or.inl hle, s.tabu, rfl⟩
      · rename_i hle
        split at h
        · rename_i ht
          split at h
          · cases h
          · cases h
            exact Or.inl ⟨Or.inr ht, _, rfl⟩
        · split at h
          · rename_i hn
            obtain ⟨a, ha, rfl⟩ := mainUpdates_ok h
            exact Or.inr (Or.inl ⟨not_le.mp hle, hn.1, hn.2, a, ha, rfl⟩)
          · split at h
            · cases h
            · rename_i s1 h1
              obtain ⟨a', ha', rfl⟩ := mainUpdates_ok h
              refine Or.inr (Or.inr ⟨not_le.mp hle, ?_⟩)
              unfold collectRecord at h1
              dsimp only at h1
              split at h1
              · cases h1
              · rename_i gap hg
                obtain ⟨a, rc, rb, e1, e2, e3, e4, rfl, e5, e6⟩ := collectRefine_cases h1
                have hc := (addJob_spec (pe := pe) (env := env) s.alg job).ctl
                obtain ⟨g, st, hl⟩ := updateLog_frame (addJob pe env s.alg job)
                  (jobResult pe job).1 gap
                refine ⟨gap, a, a', rc, rb, hg, e1, ?_, ?_, ⟨?_, ?_⟩, ha', e5, fun h => (e6 h).1, rfl⟩
                · exact e2.trans ((congrArg Alg.itercount hl).trans hc.1)
                · exact e3.trans ((congrArg Alg.step hl).trans hc.2.1)
                · exact e4.1.trans ((congrArg Alg.cyc hl).trans hc.2.2.1)
                · exact e4.2.trans ((congrArg Alg.solveUnder hl).trans (addJob_solveUnder _ _))

theorem harvestLocal_cases {s s' : PState O} {res : SearchRes} (h : harvestLocal s res = .ok s') :
    ∃ a tb, s' = { s with alg := a, tabu := tb } ∧
      (a = s.alg ∨ ∃ (i : ℕ) (p : Pt), res.ind ≠ none ∧ res.next = some p ∧
        s.alg.cur.pos[i]? = some p ∧ removeNode s.alg i s.alg.nAtRestart = .ok a) := by
  unfold harvestLocal at h
  split at h
  · rename_i i p hi hp
    split at h
    · rename_i he
      split at h
      · cases h
      · rename_i a ha
        cases h
        exact ⟨a, s.tabu, rfl, Or.inr ⟨i, p, by simp [hi], hp, he, ha⟩⟩
    · split at h
      · rename_i k hk
        split at h
        · cases h
        · rename_i a ha
          cases h
          obtain ⟨hlt, hbeq, _⟩ := List.findIdx?_eq_some_iff_getElem.mp hk
          refine ⟨a, _, rfl, Or.inr ⟨k, p, by simp [hi], hp, ?_, ha⟩⟩
          rw [List.getElem?_eq_getElem hlt]
          simpa using hbeq
      · cases h
        exact ⟨s.alg, _, rfl, Or.inl rfl⟩
  · cases h
    exact ⟨s.alg, s.tabu, rfl, Or.inl rfl⟩

theorem harvestReuse_cases {s s' : PState O} {p orig : Pt} {b : Bool} {v : ℚ}
    (h : harvestReuse P s p orig b v = .ok s') :
    ∃ a e gap a', AddOut s.alg a p orig v b e ∧
      ((b = false → e = (0, 0)) ∧ a.solveUnder = s.alg.solveUnder) ∧
      (b = true → s.err = some e) ∧
      currentGap P a = .ok gap ∧ endPass P (updateLog a v gap) = .ok a' ∧
      s' = { s with alg := a', gap := gap } := by
  unfold harvestReuse at h
  split at h
  · cases h
  · rename_i a ha
    split at h
    · cases h
    · rename_i gap hg
      split at h
      · cases h
      · obtain ⟨a', ha', rfl⟩ := mainUpdates_ok h
        split at ha
        · rename_i hb
          subst hb
          simp only [Option.map_eq_some_iff] at ha
          obtain ⟨e, he, rfl⟩ := ha
          exact ⟨_, e, gap, a', addNoisyNode_spec _ _ _ _ _ _,
            ⟨by simp, addNoisyNode_solveUnder _ _ _ _ _ _⟩, fun _ => he, hg, ha', rfl⟩
        · rename_i hb
          simp only [Bool.not_eq_true] at hb
          subst hb
          cases ha
          exact ⟨_, (0, 0), gap, a', addNode_spec _ _ _ _,
            ⟨fun _ => rfl, addNode_solveUnder _ _ _ _⟩, by simp, hg, ha', rfl⟩

/-- The state after entry `j` of the searches has been taken from the list; `a`, `tb` are the object
and the tabu list after a possible removal. -/
def takeSearch (s : PState O) (j : ℕ) (rd : ℚ × ℕ) (a : Alg O) (tb : List Pt) : PState O :=
  { s with searches := s.searches.eraseIdx j, refData := rd, alg := a, tabu := tb }

theorem harvestJob_cases {s s' : PState O} {j : ℕ} {res : SearchRes}
    (h : harvestJob P env pe s j res = .ok s') :
    ∃ job rd a tb, s.searches[j]? = some job ∧
      (a = s.alg ∨ ∃ (i : ℕ) (p : Pt), res.ind ≠ none ∧ res.next = some p ∧
        s.alg.cur.pos[i]? = some p ∧ removeNode s.alg i s.alg.nAtRestart = .ok a) ∧
      (s' = harvestDiscard P (takeSearch s j rd a tb) job.tag ∨
       ∃ p0, res.next = some p0 ∧
        harvestUsable P env (takeSearch s j rd a tb) (clipPt p0 P.lLower P.lUpper) = some true ∧
        ((∃ b v, reusePar P env a (env.toOrig (clipPt p0 P.lLower P.lUpper)) job.noisy =
              some (b, v) ∧
            harvestReuse P (takeSearch s j rd a tb) (clipPt p0 P.lLower P.lUpper)
              (env.toOrig (clipPt p0 P.lLower P.lUpper)) b v = .ok s') ∨
         (reusePar P env a (env.toOrig (clipPt p0 P.lLower P.lUpper)) job.noisy = none ∧
            s' = harvestSubmit P pe (takeSearch s j rd a tb) (clipPt p0 P.lLower P.lUpper)
              (env.toOrig (clipPt p0 P.lLower P.lUpper)) job.noisy (harvestTag job.tag res)))) := by
  unfold harvestJob at h
  split at h
  · cases h
  · rename_i job hj
    dsimp only at h
    split at h
    · cases h
    · rename_i s1 h1
      have : ∃ a tb, s1 = takeSearch s j (if job.tag = .ref then (res.modelImpr, res.toReplace)
            else s.refData) a tb ∧
          (a = s.alg ∨ ∃ (i : ℕ) (p : Pt), res.ind ≠ none ∧ res.next = some p ∧
            s.alg.cur.pos[i]? = some p ∧ removeNode s.alg i s.alg.nAtRestart = .ok a) := by
        split at h1
        · obtain ⟨a, tb, e, hc⟩ := harvestLocal_cases h1
          exact ⟨a, tb, e, hc⟩
        · cases h1
          exact ⟨s.alg, s.tabu, rfl, Or.inl rfl⟩
      obtain ⟨a, tb, rfl, hc⟩ := this
      refine ⟨job, (if job.tag = .ref then (res.modelImpr, res.toReplace) else s.refData), a, tb, hj,
        hc, ?_⟩
      split at h
      · cases h; exact Or.inl rfl
      · rename_i p0 hp0
        split at h
        · cases h
        · cases h; exact Or.inl rfl
        · rename_i hu
          refine Or.inr ⟨p0, hp0, hu, ?_⟩
          split at h
          · rename_i b v hr
            exact Or.inl ⟨b, v, hr, h⟩
          · rename_i hr
            cases h
            exact Or.inr ⟨hr, rfl⟩

theorem harvestUsable_true {s : PState O} {p : Pt} (h : harvestUsable P env s p = some true) :
    (∃ d, getMinDistance env.dist p s.alg.cur.pos = some d ∧ P.minDist < d) ∧
    ∀ d, getMinDistance env.dist p s.tPos = some d → P.minDist < d := by
  unfold harvestUsable at h
  split at h
  · cases h
  · rename_i d hd
    split at h
    · cases h
    · rename_i hlt
      refine ⟨⟨d, hd, not_le.mp hlt⟩, ?_⟩
      split at h
      · rename_i hn; intro d' hd'; rw [hn] at hd'; cases hd'
      · rename_i d' hd'
        intro d'' h''
        rw [hd'] at h''
        cases h''
        simpa using h

theorem reusePar_spec {s : Alg O} {orig : Pt} {noisy b : Bool} {v : ℚ}
    (ha : s.all.Aligned) (h : reusePar P env s orig noisy = some (b, v)) :
    (noisy = true ∨ b = false) ∧
    ∃ i q e, i < s.nAtRestart ∧ s.all.pos[i]? = some q ∧ s.all.val[i]? = some v ∧
      s.all.noisy[i]? = some b ∧ s.all.err[i]? = some e ∧ env.dist orig q < P.epsZero := by
  unfold reusePar at h
  split at h
  · cases h
  · rename_i i hi
    obtain ⟨q, hq, hlt, hd, _⟩ := reuseIndex_spec hi
    split at h
    · rename_i b' v' hb hv
      split at h
      · rename_i hc
        cases h
        obtain ⟨_, _, e, _, _, he⟩ := ha.has hq
        exact ⟨hc, i, q, e, hlt, hq, hv, hb, he, hd⟩
      · cases h
    · cases h

/-! ## Restart -/

/-- The evaluations submitted for initial points, numbered from `k`. -/
def initJobs (noisy : Bool) : ℕ → List Pt → List EvalJob
  | _, [] => []
  | k, p :: ps => ⟨k, p, noisy, .init⟩ :: initJobs noisy (k + 1) ps

theorem initJobs_ids (noisy : Bool) (k : ℕ) (ps : List Pt) :
    (initJobs noisy k ps).map (fun x => x.id) = List.range' k ps.length := by
  induction ps generalizing k with
  | nil => rfl
  | cons p ps ih => simp [initJobs, ih, List.range'_succ]

theorem initJobs_length (noisy : Bool) (k : ℕ) (ps : List Pt) :
    (initJobs noisy k ps).length = ps.length := by
  induction ps generalizing k with
  | nil => rfl
  | cons p ps ih => simp [initJobs, ih]

theorem initJobs_get {noisy : Bool} {k : ℕ} {ps : List Pt} {x : EvalJob}
    (h : x ∈ initJobs noisy k ps) :
    k ≤ x.id ∧ ps[x.id - k]? = some x.pt ∧ x.noisy = noisy ∧ x.tag = .init := by
  induction ps generalizing k with
  | nil => simp [initJobs] at h
  | cons p ps ih =>
    simp only [initJobs, List.mem_cons] at h
    rcases h with rfl | h
    · simp
    · obtain ⟨h1, h2, h3, h4⟩ := ih h
      refine ⟨by omega, ?_, h3, h4⟩
      have : x.id - k = (x.id - (k + 1)) + 1 := by omega
      rw [this, List.getElem?_cons_succ]
      exact h2

theorem submitInit_eq (s : PState O) (noisy : Bool) (ps : List Pt) :
    submitInit s noisy ps = { s with
      evals := s.evals ++ initJobs noisy s.subs.length ps
      subs := s.subs ++ ps.map (fun p => (p, noisy, Tag.init)) } := by
  induction ps generalizing s with
  | nil => simp [submitInit, initJobs]
  | cons p ps ih =>
    rw [submitInit, ih]
    simp [PState.submitEval, initJobs]

theorem popJobs_spec {js : List EvalJob} {sel : List ℕ} {done rest : List EvalJob}
    (h : popJobs js sel = some (done, rest)) :
    done.length = sel.length ∧ (done ++ rest).Perm js := by
  induction sel generalizing js done rest with
  | nil => simp only [popJobs, Option.some.injEq, Prod.mk.injEq] at h; obtain ⟨rfl, rfl⟩ := h; simp
  | cons j sel ih =>
    unfold popJobs at h
    split at h
    · cases h
    · rename_i x hx
      split at h
      · cases h
      · rename_i d r hd
        simp only [Option.some.injEq, Prod.mk.injEq] at h
        obtain ⟨rfl, rfl⟩ := h
        obtain ⟨h1, h2⟩ := ih hd
        refine ⟨by simp [h1], ?_⟩
        obtain ⟨hj, he⟩ := List.getElem?_eq_some_iff.mp hx
        have := List.getElem_cons_eraseIdx_perm hj
        rw [he] at this
        exact (List.Perm.cons x h2).trans this

/-- The object when `restart` has submitted the evaluations. -/
def beginAlg (a : Alg O) (o : O) (noisy : Bool) (k : ℕ) : Alg O :=
  { a with numNoisyRestarts := a.numNoisyRestarts + (if a.mode = .noisy then 1 else 0)
           nAtRestart := a.all.pos.length, opq := o
           evalcount := a.evalcount + (if noisy then 0 else k)
           noisyEvalcount := a.noisyEvalcount + (if noisy then k else 0) }

theorem restartBegin_cases {s s1 : PState O} {prev : Table}
    (h : restartBegin P env s = .ok (s1, prev)) :
    ∃ pts noisy o, s1 = { s with
        alg := beginAlg s.alg o noisy pts.length
        evals := initJobs noisy s.subs.length pts
        subs := s.subs ++ pts.map (fun p => (p, noisy, Tag.init)) } ∧
      (noisy = true → s.alg.mode = .noisy) ∧ prev.Aligned ∧
      prev.All (fun p v b e => s.alg.all.Has p v b e ∧ (s.alg.mode = .noisy ∨ b = false)) ∧
      ((s.alg.itercount = 0 ∧ P.doInit = false ∧ pts = [] ∧ prev = {}) ∨
       ∃ nodePos a, env.initNodes a = .ok (nodePos, o) ∧
          a = { s.alg with
            numNoisyRestarts := s.alg.numNoisyRestarts + (if s.alg.mode = .noisy then 1 else 0)
            nAtRestart := s.alg.all.pos.length } ∧
          pts.length + prev.pos.length = nodePos.length ∧ (∀ p ∈ pts, p ∈ nodePos)) := by
  unfold restartBegin at h
  dsimp only at h
  split at h
  · split at h
    · cases h
    · rename_i nodePos o hi
      split at h
      · cases h
      · rename_i r hr
        simp only [Except.ok.injEq, Prod.mk.injEq] at h
        obtain ⟨rfl, rfl⟩ := h
        obtain ⟨r1, r2, r3, r4⟩ := removeExistingIf_spec hr
        refine ⟨r.pos, !restartAccurate P (beginAlg s.alg o false 0), o, ?_, ?_, r1, r2, Or.inr ⟨nodePos, _, hi, rfl, r4, r3⟩⟩
        · exact (submitInit_eq _ _ _).trans (by simp [beginAlg])
        · intro hn
          simp only [restartAccurate, Bool.not_eq_true', decide_eq_false_iff_not, not_or] at hn
          cases hm : s.alg.mode
          · rfl
          · exact absurd hm hn.1
  · rename_i hc
    simp only [Except.ok.injEq, Prod.mk.injEq] at h
    obtain ⟨rfl, rfl⟩ := h
    push Not at hc
    refine ⟨[], false, s.alg.opq, ?_, by simp, Table.aligned_nil, Table.all_nil,
      Or.inl ⟨by omega, by simpa using hc.2, rfl, rfl⟩⟩
    simp [beginAlg, initJobs]

/-- Effect of installing the nodes `t`. -/
structure InstallOut (P : Params) (env : Env O) (a a' : Alg O) (t : Table) (m M : ℚ) (i : ℕ) :
    Prop where
  two_le : 2 ≤ t.pos.length
  all : a'.all = a.all.append t
  cur : a'.cur = { t with pos := t.pos.map env.toInternal }
  nAt : a'.nAtRestart = a.nAtRestart
  log : a'.log = a.log
  ev : a'.evalcount = a.evalcount
  nev : a'.noisyEvalcount = a.noisyEvalcount
  mode : a'.mode = a.mode
  itercount : a'.itercount = a.itercount
  least : IsLeastAt t.val i m
  greatest : IsGreatestOf t.val M
  fmin : a'.fmin = (m : EVal)
  fminIdx : a'.fminIdx = i
  fmax : a'.fmax = (M : EVal)
  fbest : a'.fbest = min a.fbest (m : EVal)
  fbestIdx : a'.fbestIdx = if (m : EVal) < a.fbest then i + a.nAtRestart else a.fbestIdx
  step : a'.step = P.firstStep
  cyc : a'.cyc = a.cyc + 1
  gapOk : ∃ gap, currentGap P a' = .ok gap
  nInit : a'.nInit = t.pos.length
  discarded : a'.discarded = []
  numCons : a'.numCons = 0
  solveUnder : a'.solveUnder = false
  numStalled : a'.numStalled = 0
  fminStall : a'.fminStall = (m : EVal)

theorem restartInstall_spec {a a' : Alg O} {t : Table} (h : restartInstall P env t a = .ok a') :
    ∃ m M i, InstallOut P env a a' t m M i := by
  unfold restartInstall at h
  dsimp only at h
  split at h
  · cases h
  · rename_i hne
    split at h
    · rename_i m i M j hm hM
      split at h
      · cases h
      · rename_i b hb
        split at h
        · cases h
        · rename_i gap hgap
          split at h
          · cases h
          · rename_i hlen
            simp only [Except.ok.injEq] at h
            subst h
            obtain ⟨a1, a2, _⟩ := argminVal_some hm
            obtain ⟨b1, b2, _⟩ := argmaxVal_some hM
            refine ⟨m, M, i, ?_⟩
            rw [logInit_eq]
            have h2l : 2 ≤ t.pos.length := by
              have : t.pos.length ≠ 0 := by simpa using hne
              omega
            by_cases hlt : (m : EVal) < a.fbest
            · simp only [hlt, if_true] at hgap ⊢
              constructor <;>
                first
                | rfl
                | assumption
                | exact ⟨a1, a2⟩
                | exact ⟨List.mem_of_getElem? b1, b2⟩
                | (simp [hlt, hlt.le, min_eq_right hlt.le]; done)
                | exact ⟨gap, hgap⟩
            · simp only [hlt, if_false] at hgap ⊢
              constructor <;>
                first
                | rfl
                | assumption
                | exact ⟨a1, a2⟩
                | exact ⟨List.mem_of_getElem? b1, b2⟩
                | (simp [hlt, min_eq_left (not_lt.mp hlt)]; done)
                | exact ⟨gap, hgap⟩
    · cases h

/-- The parts of a parallel restart. -/
structure RestartParts (P : Params) (env : Env O) (pe : PEnv O) (s s' : PState O) (pts : List Pt)
    (noisy : Bool) (o : O) (done rest : List EvalJob) (prev u : Table) (calls : List Call)
    (a : Alg O) (m M : ℚ) (i : ℕ) : Prop where
  noisyMode : noisy = true → s.alg.mode = .noisy
  prevA : prev.Aligned
  prevAll : prev.All (fun p v b e => s.alg.all.Has p v b e ∧ (s.alg.mode = .noisy ∨ b = false))
  sample : (s.alg.itercount = 0 ∧ P.doInit = false ∧ pts = [] ∧ prev = {}) ∨
       ∃ nodePos a0, env.initNodes a0 = .ok (nodePos, o) ∧
          a0 = { s.alg with
            numNoisyRestarts := s.alg.numNoisyRestarts + (if s.alg.mode = .noisy then 1 else 0)
            nAtRestart := s.alg.all.pos.length } ∧
          pts.length + prev.pos.length = nodePos.length ∧ (∀ p ∈ pts, p ∈ nodePos)
  need : initNeed P pe s.alg prev.pos.length ≤ done.length
  noNeed : initNeed P pe s.alg prev.pos.length = 0 → done = []
  perm : (done ++ rest).Perm (initJobs noisy s.subs.length pts)
  uA : u.Aligned
  uAll : u.All (fun p v b e => ∃ i : ℕ, P.initPos[i]? = some p ∧ b = false ∧ e = (0, 0) ∧
        (Call.acc (env.decode p) v ∈ calls ∨ P.initVal[i]? = some v))
  uLen : s.alg.itercount ≠ 0 → u.pos = [] ∧ calls = []
  uLe : u.pos.length ≤ P.initPos.length ∧ countAcc calls ≤ P.initPos.length
  callsN : countNoisy calls = 0
  callsPt : ∀ c ∈ calls, ∃ p ∈ P.initPos, c.point = env.decode p
  install : InstallOut P env { beginAlg s.alg o noisy pts.length with
      log := s.alg.log ++ calls
      evalcount := (beginAlg s.alg o noisy pts.length).evalcount + countAcc calls } a
      (((initTable pe (decide (s.alg.mode = .noisy)) done).append prev).append u) m M i
  eq : s' = ({ s with
      alg := a, evals := rest, tPos := rest.map (fun x => x.pt)
      tVal := rest.map (fun x => pe.tempVal a x.pt), tNoisy := rest.map (fun x => x.noisy)
      tabu := [], left := rest.length, cut := false
      subs := s.subs ++ pts.map (fun p => (p, noisy, Tag.init)) } : PState O).fates done
  removed : pts = [] ∨ ∃ (nodePos : List Pt) (a0 a1 : Alg O) (r : Removal),
      env.initNodes a0 = .ok (nodePos, o) ∧ a1.mode = s.alg.mode ∧ a1.all = s.alg.all ∧
      a1.nAtRestart = s.alg.all.pos.length ∧ removeExistingIf P env a1 nodePos = some r ∧
      pts = r.pos ∧ prev = r.prev
  callsVal : P.initPos.length ≤ P.initVal.length → calls = []

theorem initJobs_map_pt (noisy : Bool) (k : ℕ) (ps : List Pt) :
    (initJobs noisy k ps).map (fun x => x.pt) = ps := by
  induction ps generalizing k with
  | nil => rfl
  | cons p ps ih => simp [initJobs, ih]

theorem restartBegin_removed {s s1 : PState O} {prev : Table}
    (h : restartBegin P env s = .ok (s1, prev)) :
    s1.evals.map (fun x => x.pt) = [] ∨ ∃ (nodePos : List Pt) (a0 a1 : Alg O) (r : Removal),
      env.initNodes a0 = .ok (nodePos, s1.alg.opq) ∧ a1.mode = s.alg.mode ∧ a1.all = s.alg.all ∧
      a1.nAtRestart = s.alg.all.pos.length ∧ removeExistingIf P env a1 nodePos = some r ∧
      s1.evals.map (fun x => x.pt) = r.pos ∧ prev = r.prev := by
  unfold restartBegin at h
  dsimp only at h
  split at h
  · split at h
    · cases h
    · rename_i nodePos o hi
      split at h
      · cases h
      · rename_i r hr
        simp only [Except.ok.injEq, Prod.mk.injEq] at h
        obtain ⟨rfl, rfl⟩ := h
        refine Or.inr ⟨nodePos, { s.alg with
            numNoisyRestarts := s.alg.numNoisyRestarts + (if s.alg.mode = .noisy then 1 else 0)
            nAtRestart := s.alg.all.pos.length }, { s.alg with
            numNoisyRestarts := s.alg.numNoisyRestarts + (if s.alg.mode = .noisy then 1 else 0)
            nAtRestart := s.alg.all.pos.length, opq := o }, r, ?_, ?_, ?_, ?_, hr, ?_, rfl⟩
        · rw [submitInit_eq]; exact hi
        · rfl
        · rfl
        · rfl
        · rw [submitInit_eq]; simp [initJobs_map_pt]
  · simp only [Except.ok.injEq, Prod.mk.injEq] at h
    obtain ⟨rfl, rfl⟩ := h
    exact Or.inl rfl

theorem initTable_aligned (b : Bool) (done : List EvalJob) : (initTable pe b done).Aligned := by
  simp [initTable, Table.Aligned]

theorem restartUser_len {s s' : Alg O} {t t' : Table}
    (h : restartUser P env t s = .ok (t', s')) :
    (s.itercount ≠ 0 → t' = t ∧ s' = s) ∧ t'.pos.length ≤ t.pos.length + P.initPos.length ∧
    s'.evalcount ≤ s.evalcount + P.initPos.length := by
  unfold restartUser at h
  split at h
  · rename_i hc
    have hsel : ((selectUser P env t.pos).filterMap (fun i => P.initPos[i]?)).length ≤
        P.initPos.length := by
      refine (List.length_filterMap_le _ _).trans ?_
      unfold selectUser
      exact (List.length_filter_le _ _).trans (by simp)
    dsimp only at h
    split at h
    · simp only [Except.ok.injEq, Prod.mk.injEq] at h
      obtain ⟨rfl, rfl⟩ := h
      obtain ⟨calls, e1, e2, e3, e4, e5⟩ := evalList_spec env
        ((selectUser P env t.pos).filterMap (fun i => P.initPos[i]?)) s
      refine ⟨fun h => absurd hc.2 h, ?_, ?_⟩
      · simp only [Table.append, List.length_append]; omega
      · simp only [e1, e4]; omega
    · simp only [Except.ok.injEq, Prod.mk.injEq] at h
      obtain ⟨rfl, rfl⟩ := h
      refine ⟨fun h => absurd hc.2 h, ?_, by omega⟩
      simp only [Table.append, List.length_append]; omega
  · cases h
    exact ⟨fun _ => ⟨rfl, rfl⟩, by omega, by omega⟩

theorem restartUser_vals {s s' : Alg O} {t t' : Table}
    (h : restartUser P env t s = .ok (t', s')) (hv : P.initPos.length ≤ P.initVal.length) :
    s'.log = s.log := by
  unfold restartUser at h
  split at h
  · dsimp only at h
    rw [if_neg (not_lt.mpr hv)] at h
    cases h; rfl
  · cases h; rfl

theorem restartPar_ok {s s' : PState O} (h : RestartPar P env pe s (.ok s')) :
    ∃ pts noisy o done rest prev u calls a m M i,
      RestartParts P env pe s s' pts noisy o done rest prev u calls a m M i := by
  generalize hr : (Except.ok s' : Except PyErr (PState O)) = r at h
  cases h with
  | failed h => cases hr
  | @ends s1 prev sel done rest hb hp hn hz =>
    have hrem := restartBegin_removed hb
    obtain ⟨pts, noisy, o, rfl, q1, q2, q3, q4⟩ := restartBegin_cases hb
    simp only [initJobs_map_pt, beginAlg] at hrem
    obtain ⟨p1, p2⟩ := popJobs_spec hp
    symm at hr
    unfold restartEnd at hr
    dsimp only at hr
    split at hr
    · cases hr
    · rename_i t a hu
      split at hr
      · cases hr
      · rename_i a' hi
        simp only [Except.ok.injEq] at hr
        obtain ⟨al, calls, u, rfl, hua, rfl, hcn, hall⟩ :=
          restartUser_spec hu ((initTable_aligned _ _).append q2)
        obtain ⟨l1, l2, l3⟩ := restartUser_len hu
        obtain ⟨m, M, i, ho⟩ := restartInstall_spec hi
        have hpt : ∀ c ∈ calls, ∃ p ∈ P.initPos, c.point = env.decode p := by
          obtain ⟨c2, u2, _, hl2, hp2, _⟩ := restartUser_calls hu
          have : calls = c2 := List.append_cancel_left hl2
          rw [this]; exact hp2
        refine ⟨pts, noisy, o, done, rest, prev, u, calls, a', m, M, i, ⟨q1, q2, q3, q4, by omega,
          fun h0 => ?_, p2, hua, hall, fun h0 => ?_, ?_, hcn, hpt, ho, hr.symm, hrem, fun hv => ?_⟩⟩
        · have := hz h0
          subst this
          simpa using p1
        · obtain ⟨e1, e2⟩ := l1 h0
          have e1' := congrArg Table.pos e1
          simp only [Table.append] at e1'
          have e2' := congrArg Alg.log e2
          simp only at e2'
          exact ⟨by simpa using e1', by simpa using e2'⟩
        · simp only [Table.append, List.length_append] at l2
          simp only at l3
          omega
        · have := restartUser_vals hu hv
          simpa using this

end Rbfopt
