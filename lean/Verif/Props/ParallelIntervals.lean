import Verif.Props.ParallelRecords
import Verif.Examples.ParallelRecords

/-! # Where the error intervals of a parallel run come from (C06) -/

namespace Rbfopt

variable {O : Type} {P : Params} {env : Env O} {pe : PEnv O}

/-- The interval was returned by a submitted call of `evaluate_noisy()`. -/
def PState.IntervalReturned (s : PState O) (pe : PEnv O) (e : ℚ × ℚ) : Prop :=
  ∃ id x tag v, s.subs[id]? = some (x, true, tag) ∧ pe.noisyRes id = (v, e.1, e.2)

theorem PState.IntervalReturned.mono {s t : PState O} {e : ℚ × ℚ}
    (h : s.IntervalReturned pe e) (ht : ∃ l, t.subs = s.subs ++ l) : t.IntervalReturned pe e := by
  obtain ⟨id, x, tag, v, h1, h2⟩ := h
  obtain ⟨l, hl⟩ := ht
  refine ⟨id, x, tag, v, ?_, h2⟩
  rw [hl, List.getElem?_append_left (List.getElem?_eq_some_iff.mp h1).1]
  exact h1

/-- Intervals of the records and of the variables `err_l`, `err_u`. -/
structure ParErrOK (pe : PEnv O) (s : PState O) : Prop where
  all : s.alg.all.All (fun _ _ _ e => e = (0, 0) ∨ s.IntervalReturned pe e)
  loc : ∀ e, s.err = some e → s.IntervalReturned pe e

theorem ParErrOK.same {s t : PState O} (h : ParErrOK pe s) (e1 : t.alg.all = s.alg.all)
    (e2 : ∀ e, t.err = some e → s.err = some e) (e3 : ∃ l, t.subs = s.subs ++ l) : ParErrOK pe t :=
  ⟨Table.All.of_eq e1 (h.all.mono (fun _ _ _ _ hh => hh.imp_right (fun x => x.mono e3))),
    fun e he => (h.loc e (e2 e he)).mono e3⟩

theorem PBook.interval {s : PState O} (hb : PBook env pe s) {job : EvalJob} (hj : job ∈ s.evals)
    (hn : job.noisy = true) :
    s.IntervalReturned pe ((jobResult pe job).2.1, (jobResult pe job).2.2) := by
  obtain ⟨orig, h1, h2⟩ := hb.jobs job hj
  rw [hn] at h1
  exact ⟨job.id, orig, job.tag, (jobResult pe job).1, h1, by simp [jobResult, hn]⟩

theorem PReach.errOK {o : O} {c : PCtl} {s : PState O} (h : PReach P env pe o c s) :
    ParErrOK pe s := by
  refine h.inductB (I := ParErrOK pe) ?_ ?_ ?_ ?_ ?_ ?_ ?_ ?_ ?_ ?_ ?_
  · exact ⟨by simpa [Alg.init] using Table.all_nil, by simp⟩
  · intro s s' _ hI hc
    exact hI.same (congrArg Data.all hc.data) (by rw [hc.err]; exact fun _ h => h)
      ⟨[], by rw [hc.subs]; simp⟩
  · intro s s' b j hb hI hp hc
    obtain ⟨job, d, hj, hd, hcase⟩ := collectJob_cases hc
    have hmem : job ∈ s.evals := List.mem_of_getElem? hj
    have hloc : ∀ e, (takeJob pe s j job).err = some e → s.IntervalReturned pe e := by
      intro e he
      simp only [takeJob, PState.popTemp] at he
      split at he
      · rename_i hn
        simp only [Option.some.injEq] at he
        rw [← he]; exact hb.interval hmem hn
      · exact hI.loc e he
    rcases hcase with ⟨_, tb, rfl⟩ | ⟨_, hn, _, a, ha, rfl⟩ |
      ⟨_, gap, a, a', rc, rb, hg, hda, _, _, _, ha, _, _, rfl⟩
    · exact ⟨hI.all, hloc⟩
    · obtain ⟨-, -, -, -, -, -, -, -, c1, -⟩ := endPass_ctl ha
      have hsub : ∃ l, ({ collectRepeat env (takeJob pe s j job) job (jobResult pe job).1 with
          alg := a, pc := .evals b } : PState O).subs = s.subs ++ l := ⟨_, rfl⟩
      exact ⟨Table.All.of_eq c1 (hI.all.mono (fun _ _ _ _ hh => hh.imp_right (fun x => x.mono hsub))),
        fun e he => (hloc e he).mono hsub⟩
    · have hadd := addJob_spec (pe := pe) (env := env) s.alg job
      obtain ⟨g, st, hl⟩ := updateLog_frame (addJob pe env s.alg job) (jobResult pe job).1 gap
      rw [hl] at hda
      have d1 : a.all = (addJob pe env s.alg job).all := congrArg Data.all hda
      obtain ⟨-, -, -, -, -, -, -, -, c1, -⟩ := endPass_ctl ha
      refine ⟨Table.All.of_eq (c1.trans (d1.trans hadd.all)) (Table.All.snoc hb.wf.allA hI.all ?_),
        hloc⟩
      cases hn : job.noisy
      · left; simp [jobResult, hn]
      · right; exact hb.interval hmem hn
  · intro s s' j res hb hI hp hi hc
    obtain ⟨job, rd, a, tb, hj, ha, hcase⟩ := harvestJob_cases hc
    have hfa : a.all.All (fun _ _ _ e => e = (0, 0) ∨ s.IntervalReturned pe e) ∧ a.all.Aligned := by
      rcases ha with rfl | ⟨i, _, _, _, _, ha⟩
      · exact ⟨hI.all, hb.wf.allA⟩
      · obtain ⟨_, _, rfl⟩ := removeNode_spec ha
        exact ⟨hI.all.eraseIdx _, hb.wf.allA.eraseIdx _⟩
    rcases hcase with rfl | ⟨p0, hp0, hu, ⟨b, v, hr, hre⟩ | ⟨hr, rfl⟩⟩
    · obtain ⟨nc, rc, rb, _, _, e⟩ := harvestDiscard_eq (P := P) (takeSearch s j rd a tb) job.tag
      rw [e]
      exact ⟨hfa.1, hI.loc⟩
    · obtain ⟨a1, e, gap, a2, hadd, hz, hze, hg, he, rfl⟩ := harvestReuse_cases hre
      obtain ⟨-, -, -, -, -, -, -, -, c1, -⟩ := endPass_ctl he
      obtain ⟨g, st, hl⟩ := updateLog_frame a1 v gap
      rw [hl] at c1 he
      refine ⟨Table.All.of_eq (c1.trans hadd.all) (Table.All.snoc hfa.2 hfa.1 ?_), hI.loc⟩
      cases hn : b
      · exact Or.inl (hz.1 hn)
      · exact Or.inr (hI.loc e (hze hn))
    · have hsub : ∃ l, ({ harvestSubmit P pe (takeSearch s j rd a tb) (clipPt p0 P.lLower P.lUpper)
          (env.toOrig (clipPt p0 P.lLower P.lUpper)) job.noisy (harvestTag job.tag res) with
          pc := .searches } : PState O).subs = s.subs ++ l := ⟨_, rfl⟩
      exact ⟨hfa.1.mono (fun _ _ _ _ hh => hh.imp_right (fun x => x.mono hsub)),
        fun e he => (hI.loc e he).mono hsub⟩
  · intro s s' pc hb hI he hs hr _ gap
    obtain ⟨pts, noisy, o, done, rest, prev, u, calls, a, m, M, i, hp⟩ := restartPar_ok hr
    have ho := hp.install
    have hall : a.all = s.alg.all.append
      (((initTable pe (decide (s.alg.mode = .noisy)) done).append prev).append u) := ho.all
    have hsub : ∃ l, s'.subs = s.subs ++ l := by rw [hp.eq]; exact ⟨_, rfl⟩
    have hold : s.alg.all.All (fun _ _ _ e => e = (0, 0) ∨ s'.IntervalReturned pe e) :=
      hI.all.mono (fun _ _ _ _ hh => hh.imp_right (fun x => x.mono hsub))
    have herr : s'.err = s.err := by rw [hp.eq]; rfl
    have hall' : s'.alg.all = a.all := by rw [hp.eq]; rfl
    refine ⟨?_, fun e he => (hI.loc e (herr ▸ he)).mono hsub⟩
    refine Table.All.of_eq (hall'.trans hall) (Table.All.append hb.wf.allA hold
        (Table.All.append ((initTable_aligned _ _).append hp.prevA)
        (Table.All.append (initTable_aligned _ _) ?_ ?_) ?_))
    · intro k p v b e g1 g2 g3 g4
      simp only [initTable, List.getElem?_map, Option.map_eq_some_iff] at g1 g4
      obtain ⟨x, hx, rfl⟩ := g1
      rw [hx] at g4
      simp only [Option.some.injEq, exists_eq_left'] at g4
      subst g4
      obtain ⟨k1, k2, k3, k4⟩ := initJobs_get
        (hp.perm.mem_iff.mp (List.mem_append_left rest (List.mem_of_getElem? hx)))
      cases hn : noisy
      · left; simp [jobResult, k3, hn]
      · right
        refine ⟨x.id, x.pt, .init, (jobResult pe x).1, ?_, by simp [jobResult, k3, hn]⟩
        rw [hp.eq]
        show (s.subs ++ pts.map _)[x.id]? = _
        rw [List.getElem?_append_right k1, List.getElem?_map, k2, hn]
        rfl
    · exact hp.prevAll.mono (fun p v b e hh => by
        obtain ⟨k, g1, g2, g3, g4⟩ := hh.1
        exact hold k p v b e g1 g2 g3 g4)
    · refine hp.uAll.mono ?_
      rintro p v b e ⟨k, k1, k2, k3, _⟩
      exact Or.inl k3
  · intro s a rd rb noisy tag _ hI hp hd _ hn
    exact hI.same (congrArg Data.all hd) (fun _ h => h) ⟨[], by simp [PState.submitSearch]⟩
  · intro s s' job todo hb hI hp he hc
    obtain ⟨hn, _, a, gap, g, st, ha, _, rfl⟩ := closeJob_cases hc
    exact ⟨Table.All.of_eq ha.all (Table.All.snoc hb.wf.allA hI.all (Or.inl rfl)), hI.loc⟩
  · intro s pc rc gap _ hI _ _
    exact ⟨hI.all, by simp [PState.fresh]⟩
  · intro s t _ hI _
    exact ⟨hI.all, hI.loc⟩
  · intro s _ hI _
    exact ⟨hI.all, by simp [PState.lose, PState.fresh]⟩
  · intro s t _ hI _ _ hc
    obtain ⟨pts, noisy, o, rfl, hm, -⟩ := hc.frame
    exact hI.same rfl (by simp [PState.lose, PState.fresh]) ⟨_, rfl⟩

/-- **C06** (parallel) For every schedule of the workers, every recorded interval is empty or was
returned by some evaluation that the object submitted to `evaluate_noisy()`. -/
theorem C06_parallel_intervals_genuine {o : O} {c : PCtl} {s : PState O}
    (h : PReach P env pe o c s) :
    s.alg.all.All (fun _ _ _ e => e = (0, 0) ∨
      ∃ id x tag v, s.subs[id]? = some (x, true, tag) ∧ pe.noisyRes id = (v, e.1, e.2)) :=
  h.errOK.all

/-- A reachable state with recorded intervals that are not empty (`C06_parallel_example`). -/
example : ∃ s : PState ℕ, PReach Demo.PT Demo.envT Demo.peInt 0 (.running 0 100) s ∧
    (0, 1) ∈ s.alg.all.err := by
  obtain ⟨s, h, -, -, h3⟩ := Demo.C06_parallel_example
  exact ⟨s, h, by rw [h3]; simp⟩

end Rbfopt
