import Verif.Props.ParallelBounds
import Verif.Props.ParallelRefine
import Verif.Props.ParallelPhase

/-! # Refinement indices of a parallel run in noisy mode (C22) -/

namespace Rbfopt

variable {O : Type} {P : Params} {env : Env O} {pe : PEnv O} {o : O} {c : PCtl} {s s' : PState O}

/-- The mode never changes back to noisy. -/
theorem PStep.mode_back {start pause : ℕ} (hs : PStep P env pe start pause s s')
    (hm : s'.alg.mode = .noisy) : s.alg.mode = .noisy := by
  cases hs.kind with
  | ctrl hc => exact (congrArg Data.mode hc.data).symm.trans hm
  | collect hp hc e =>
    subst e
    obtain ⟨job, d, hj, hd, hcase⟩ := collectJob_cases hc
    rcases hcase with ⟨_, tb, rfl⟩ | ⟨_, hn, _, a, ha, rfl⟩ |
      ⟨_, gap, a, a', rc, rb, hg, hda, _, _, _, ha, _, _, rfl⟩
    · exact hm
    · have h1 := endPass_mode_back ha hm
      exact h1
    · have hm' := endPass_mode_back ha hm
      have hadd := addJob_spec (pe := pe) (env := env) s.alg job
      have e1 : a.mode = (updateLog (addJob pe env s.alg job) (jobResult pe job).1 gap).mode :=
        congrArg Data.mode hda
      obtain ⟨g, st, hl⟩ := updateLog_frame (addJob pe env s.alg job) (jobResult pe job).1 gap
      have e2 : (updateLog (addJob pe env s.alg job) (jobResult pe job).1 gap).mode = s.alg.mode := by
        rw [hl]; exact hadd.rest.2.2.2.1
      exact e2 ▸ e1 ▸ hm'
  | @harvest j res s1 hp hi hprop hc e =>
    subst e
    obtain ⟨job, rd, a, tb, hj, ha, hcase⟩ := harvestJob_cases hc
    have hmode : a.mode = s.alg.mode := by
      rcases ha with rfl | ⟨i, _, _, _, _, ha⟩
      · rfl
      · obtain ⟨_, _, rfl⟩ := removeNode_spec ha
        rfl
    rw [← hmode]
    rcases hcase with rfl | ⟨p0, hp0, hu, ⟨b, v, hr, hre⟩ | ⟨hr, rfl⟩⟩
    · obtain ⟨nc, rc, rb, _, _, e⟩ := harvestDiscard_eq (P := P) (takeSearch s j rd a tb) job.tag
      rw [e] at hm
      exact hm
    · obtain ⟨a1, e, gap, a2, hadd, hz, _, hg, he, rfl⟩ := harvestReuse_cases hre
      have hm' := endPass_mode_back he hm
      obtain ⟨g, st, hl⟩ := updateLog_frame a1 v gap
      have e2 : (updateLog a1 v gap).mode = a.mode := by
        rw [hl]; exact hadd.rest.2.2.2.1
      exact e2 ▸ hm'
    · exact hm
  | restart hc _ _ hre hpc e =>
    obtain ⟨pts, noisy, o, done, rest, prev, u, calls, a, m, M, i, hq⟩ := restartPar_ok hre
    subst e
    rw [hq.eq] at hm
    exact (congrArg Data.mode hc.data).symm.trans (hq.install.mode.symm.trans hm)
  | submit _ hd _ _ _ _ e =>
    subst e
    exact (congrArg Data.mode hd).symm.trans hm
  | close hp hc e =>
    subst e
    obtain ⟨hn, hne, a, gap, g, st, ha, _, rfl⟩ := closeJob_cases hc
    exact ha.rest.2.2.2.1.symm.trans hm

/-- **C22** (parallel engine, any black box) As long as the object is in noisy mode, while a refinement
phase is in progress its model set and its center denote existing nodes, whatever the schedule. -/
theorem C22_parallel_indices_valid_noisy_mode
    (hin : ∀ a set rad o, env.initRef a = .ok ((set, rad), o) → ∀ j ∈ set, j < a.cur.pos.length)
    (h : PReach P env pe o c s) (hm : s.alg.mode = .noisy) (ha : 0 < s.alg.numCons ∨ 0 < s.refJobs) :
    (∀ j ∈ s.alg.refSet, j < s.alg.cur.pos.length) ∧ s.alg.refIter < s.alg.cur.pos.length := by
  suffices hI : RefInv s from hI ha
  clear ha
  have hgap : ∀ q : PState O, RefInv q → RefInv (withGap P q) := by
    intro q hq
    unfold withGap
    split <;> exact hq
  have hw : ∀ q : PState O, (withGap P q).alg = q.alg := by
    intro q; unfold withGap; split <;> rfl
  have hfresh : ∀ q : PState O, RefInv q → ∀ pc, RefInv { q.fresh with pc := pc } := by
    intro q hq pc
    exact hq.same rfl rfl le_rfl id (by simp [PState.refJobs, PState.fresh])
  induction h with
  | init => rintro (h | h) <;> simp [Alg.init, PState.refJobs] at h
  | call pause h0 hs ih =>
    cases hs with
    | zeroFrequency _ => exact hfresh _ (ih hm) _
    | firstFails _ _ _ => exact hfresh _ (ih hm) _
    | first _ _ hr => exact hgap _ (RefInv.restart rfl hr (pc := _) (gap := _))
    | resumed _ _ =>
      refine hgap _ ?_
      rw [hw] at hm
      exact (ih hm).same rfl rfl le_rfl id (by simp [PState.refJobs, PState.fresh])
  | ret h0 hp ih => exact (ih hm).same rfl rfl le_rfl id le_rfl
  | load h0 hp ih =>
    exact (ih hm).same rfl rfl le_rfl id (by simp [PState.refJobs, PState.lose, PState.fresh])
  | raises h0 hc ih =>
    obtain ⟨-, rfl | ⟨s1, -, -, -, hr, he⟩⟩ := hc.cases
    · exact (ih hm).same rfl rfl le_rfl id (by simp [PState.refJobs, PState.lose, PState.fresh])
    · obtain ⟨pts, noisy, o, rfl, -, -⟩ := hr.frame
      rcases he with rfl | ⟨o', rfl⟩
      · exact (ih hm).same rfl rfl le_rfl id (by simp [PState.refJobs, PState.lose, PState.fresh])
      · exact (ih hm).same rfl rfl le_rfl id (by simp [PState.refJobs, PState.lose, PState.fresh])
  | firstRaises h0 _ _ hr ih =>
    obtain ⟨pts, noisy, o, rfl, -, -⟩ := hr.frame
    exact (ih hm).same rfl rfl le_rfl id (by simp [PState.refJobs, PState.lose, PState.fresh])
  | @step s s' start pause h0 hs ih =>
    have ih := ih (hs.mode_back hm)
    have hbn := h0.bestNoisy (hs.mode_back hm)
    clear hm
    cases hs with
    | collect j hp hj =>
      unfold PState.orRaise
      split
      · exact ih
      · rename_i s1 hc
        have h1 : RefInv s1 := ih.collect hc
        exact h1
    | harvest j res hp hj hi _ =>
      unfold PState.orRaise
      split
      · exact ih
      · rename_i s1 hc
        have h1 : RefInv s1 := ih.harvest (hi (Or.inr (by
          rw [List.getElem?_eq_getElem hj, Option.map_some, hbn.2 _ (List.getElem_mem hj)]))) hc
        exact h1
    | @restart r hp _ _ _ hb hr =>
      unfold PState.orRaise
      have hb' : s.evals = [] ∧ s.searches = [] := by simpa [parBusy] using hb
      split
      · exact ih
      · exact RefInv.restart hb'.2 hr (gap := _)
    | restoration hp _ _ _ hb hr =>
      unfold PState.orRaise
      have hb' : s.evals = [] ∧ s.searches = [] := by simpa [parBusy] using hb
      split
      · exact ih
      · refine RefInv.restart ?_ hr (gap := _)
        exact hb'.2
    | submit r1 r2 hp _ _ _ =>
      unfold PState.orRaise
      split
      · exact ih
      · rename_i hc
        refine RefInv.submit ?_ hin hc
        exact ih
    | close hp =>
      unfold PState.orRaise
      split
      · exact ih
      · rename_i hc
        obtain ⟨hn, hne, a, gap, g, st, hadd, _, rfl⟩ := closeJob_cases hc
        have hctl := hadd.ctl
        refine ih.same hctl.2.2.2.2.2.2.1 hctl.2.2.2.2.2.2.2.1 ?_ ?_ ?_
        · show _ ≤ a.cur.pos.length
          rw [hadd.len]; exact Nat.le_succ _
        · intro h0
          have h0' : 0 < a.numCons := h0
          rw [hctl.2.2.2.1] at h0'
          exact h0'
        · simp only [PState.refJobs, PState.fate]
          have := (List.tail_sublist s.evals).countP_le (p := fun x : EvalJob => x.tag == Tag.ref)
          omega
    | _ => exact ih

/-- **C74** (any black box) As long as a parallel call is in noisy mode, records are never changed or
removed: every step only appends to them. -/
theorem C74_records_append_only_noisy_mode {start pause : ℕ}
    (h : PReach P env pe o (.running start pause) s)
    (hs : Relation.ReflTransGen (PStep P env pe start pause) s s') (hm : s'.alg.mode = .noisy) :
    ∃ t, s'.alg.all = s.alg.all.append t := by
  have hboth : PReach P env pe o (.running start pause) s' ∧
      (s'.alg.mode = .noisy → ∃ t, s'.alg.all = s.alg.all.append t) := by
    clear hm
    induction hs with
    | refl => exact ⟨h, fun _ => ⟨{}, by simp [Table.append]⟩⟩
    | tail _ hbc ih =>
      obtain ⟨hr, ht⟩ := ih
      refine ⟨.step hr hbc, fun hm => ?_⟩
      have hmb := hbc.mode_back hm
      obtain ⟨t, ht⟩ := ht hmb
      rcases C80_removed_only_for_reevaluation hr hbc with ⟨t', e⟩ | ⟨-, -, job, k, p, hj, -, hn, -⟩
      · exact ⟨t.append t', by rw [e, ht]; simp [Table.append, List.append_assoc]⟩
      · rw [(hr.bestNoisy hmb).2 job hj] at hn
        cases hn
  exact hboth.2 hm

end Rbfopt
