import Verif.Spec.ParallelDiscarded
import Verif.Props.Discarded
import Verif.Props.ParallelMoves
import Verif.Props.ParallelInterrupt
import Verif.Props.ParallelEnd

/-!
# Restarts because of discarded searches in the parallel engine (C95)
-/

namespace Rbfopt

variable {O : Type} {P : Params} {env : Env O} {pe : PEnv O} {o : O} {c : PCtl} {s s' : PState O}
  {h : List Bool}

theorem PHistory.noRaise (hh : PHistory P env pe o c s h) : c ≠ .idle → ∀ e, s.pc ≠ .raised e := by
  cases hh with
  | init => exact fun h => absurd rfl h
  | call _ _ _ h3 => exact fun _ => h3
  | step _ _ h3 => exact fun _ => h3
  | ret => exact fun h => absurd rfl h
  | load => exact fun h => absurd rfl h

theorem PHistory.reach (hh : PHistory P env pe o c s h) : PReach P env pe o c s := by
  induction hh with
  | init => exact .init
  | call pause _ hs _ ih => exact .call pause ih hs
  | step _ hs _ ih => exact .step ih hs
  | ret _ hp ih => exact .ret ih hp
  | load hh ih => exact .load ih (hh.noRaise (fun h => by cases h))

theorem refContinuePar_discarded {a b : Alg O} {t : ℕ} {rd : Bool}
    (hc : refContinuePar P env a t rd = .ok b) : b.discarded = a.discarded := by
  unfold refContinuePar at hc
  by_cases h1 : a.refRadius < P.refMinRadius
  · rw [if_pos h1] at hc; cases hc; rfl
  · rw [if_neg h1] at hc
    split at hc
    · split at hc
      · cases hc
      · rename_i q hq
        split_ifs at hc <;> (cases hc; rfl)
    · cases hc

theorem refinementUpdatePar_discarded {a b : Alg O} {mi ri : ℚ} {t : ℕ} {rd : Bool}
    (hc : refinementUpdatePar P env a mi ri t rd = .ok b) : b.discarded = a.discarded := by
  unfold refinementUpdatePar at hc
  dsimp only at hc
  split at hc
  · cases hc
  · split at hc
    · cases hc
    · rename_i a1 tr h1
      split at hc
      · cases hc
      · rename_i a2 h3
        have k1 : b.discarded = a2.discarded := by
          cases hc; split <;> rfl
        have k2 := refContinuePar_discarded h3
        have k3 : a1.discarded = a.discarded := by
          rcases refAccept_cases h1 with ⟨rfl, -⟩ | ⟨rfl, -⟩ <;> rfl
        exact k1.trans (k2.trans k3)

theorem collectRecord_discarded {job : EvalJob} {v el eu : ℚ}
    (hc : collectRecord P env s job v el eu = .ok s') :
    s'.alg.discarded = s.alg.discarded ∧ s'.searches = s.searches := by
  unfold collectRecord at hc
  dsimp only at hc
  have hadd : (if job.noisy = true then addNoisyNode s.alg job.pt (env.toOrig job.pt) v el eu
      else addNode s.alg job.pt (env.toOrig job.pt) v).discarded = s.alg.discarded := by
    split
    · exact (addNoisyNode_spec _ _ _ _ _ _).ctl.2.2.2.2.2.2.2.2.2.1
    · exact (addNode_spec _ _ _ _).ctl.2.2.2.2.2.2.2.2.2.1
  generalize (if job.noisy = true then addNoisyNode s.alg job.pt (env.toOrig job.pt) v el eu
      else addNode s.alg job.pt (env.toOrig job.pt) v) = a at hc hadd
  split at hc
  · cases hc
  · rename_i gap hg
    obtain ⟨g', st, e⟩ := updateLog_frame a v gap
    have hl : (updateLog a v gap).discarded = a.discarded := by rw [e]
    unfold collectRefine at hc
    split at hc
    · split at hc
      · cases hc
      · split at hc
        · cases hc
        · rename_i b hb
          cases hc
          exact ⟨(refinementUpdatePar_discarded hb).trans (hl.trans hadd), rfl⟩
    · cases hc
      exact ⟨hl.trans hadd, rfl⟩

theorem collectJob_discarded {j : ℕ} (hc : collectJob P env pe s j = .ok s') :
    s'.alg.discarded = s.alg.discarded ∧ s'.searches = s.searches := by
  unfold collectJob at hc
  split at hc
  · cases hc
  · rename_i job hj
    dsimp only at hc
    split at hc
    · cases hc
    · split at hc
      · cases hc; exact ⟨rfl, rfl⟩
      · split at hc
        · split at hc
          · cases hc
          · cases hc; exact ⟨rfl, rfl⟩
        · split at hc
          · obtain ⟨a, ha, rfl⟩ := mainUpdates_ok hc
            exact ⟨(endPass_ctl ha).2.2.2.2.2.2.2.2.2.2.2.2.2.2.2.2.1, rfl⟩
          · split at hc
            · cases hc
            · rename_i s2 h2
              obtain ⟨a', ha', rfl⟩ := mainUpdates_ok hc
              have e1 := (endPass_ctl ha').2.2.2.2.2.2.2.2.2.2.2.2.2.2.2.2.1
              have e2 := collectRecord_discarded h2
              exact ⟨e1.trans e2.1, e2.2⟩

theorem submitNext_discarded {r k : Bool} (hc : submitNext P env s r k = .ok s') :
    s'.alg.discarded = s.alg.discarded ∧ s.searches.length ≤ s'.searches.length := by
  unfold submitNext at hc
  split at hc
  · unfold submitRefine at hc
    split at hc
    · cases hc
    · rename_i a ha
      have hd : a.discarded = s.alg.discarded := by
        split at ha
        · rcases initRefIfNeeded_cases ha with ⟨-, -, set, rad, o, -, rfl⟩ | ⟨-, rfl⟩ <;> rfl
        · cases ha; rfl
      dsimp only at hc
      split at hc
      · cases hc; exact ⟨hd, le_rfl⟩
      · cases hc; exact ⟨hd, by simp [PState.submitSearch]⟩
  · cases hc
    exact ⟨rfl, by simp [PState.submitSearch]⟩

/-- The model's deque holds the last outcomes. -/
theorem searchOutcomes_window {start pause : ℕ} (hP : P.twoPhase = false)
    (hr : PReach P env pe o (.running start pause) s) (hcut : s.cut = false)
    (hra : ∀ e, s.pc ≠ .raised e)
    (hs : PStep P env pe start pause s s') (hw : s.alg.discarded = lastOf P.discWindow h) :
    s'.alg.discarded = lastOf P.discWindow (searchOutcomes s s' h) := by
  have same : ∀ {t : PState O}, t.alg.nAtRestart = s.alg.nAtRestart →
      s.searches.length ≤ t.searches.length → t.alg.discarded = s.alg.discarded →
      t.alg.discarded = lastOf P.discWindow (searchOutcomes s t h) := by
    intro t h1 h2 h3
    unfold searchOutcomes
    rw [if_pos h1, if_neg (by omega), h3, hw]
  have hlt : s.alg.nAtRestart < s.alg.all.pos.length := by
    have hne : s.alg.cur.pos ≠ [] :=
      ((hr.nonempty hP).1 (fun h => by cases h)).resolve_left (fun ⟨e, he⟩ => hra e he)
    have hwf := hr.book.wf.tail hcut
    have := hwf.pos.length_eq
    rw [List.length_drop] at this
    have hpos := List.length_pos_iff.mpr hne
    omega
  have fresh : ∀ {t : PState O}, t.alg.nAtRestart ≠ s.alg.nAtRestart → t.alg.discarded = [] →
      t.alg.discarded = lastOf P.discWindow (searchOutcomes s t h) := by
    intro t h1 h2
    unfold searchOutcomes
    rw [if_neg h1, h2, lastOf_nil]
  have hre : ∀ {t : PState O} {r : Except PyErr (PState O)} {pc : PC},
      RestartPar P env pe t r → t.alg.all = s.alg.all →
      (s.orRaise pc r).alg.discarded = lastOf P.discWindow (searchOutcomes s (s.orRaise pc r) h) := by
    intro t r pc hq h2
    unfold PState.orRaise
    split
    · exact same rfl le_rfl rfl
    · obtain ⟨pts, noisy, o, done, rest, prev, u, calls, a, m, M, i, hq⟩ := restartPar_ok hq
      have e1 : a.nAtRestart = t.alg.all.pos.length := hq.install.nAt
      have e2 : a.discarded = [] := hq.install.discarded
      rw [hq.eq]
      refine fresh ?_ e2
      show a.nAtRestart ≠ _
      rw [e1, h2]; omega
  cases hs with
  | enter => exact same rfl le_rfl rfl
  | leave => exact same rfl le_rfl rfl
  | evalsDone => exact same rfl le_rfl rfl
  | searchesDone => exact same rfl le_rfl rfl
  | full => exact same rfl le_rfl rfl
  | waitRestart => exact same rfl le_rfl rfl
  | noRestart => exact same rfl le_rfl rfl
  | prepFails => exact same rfl le_rfl rfl
  | noList => exact same rfl le_rfl rfl
  | finish => exact same rfl le_rfl rfl
  | underdetermined => exact same rfl le_rfl rfl
  | skip => exact same rfl le_rfl rfl
  | waitRestoration => exact same rfl le_rfl rfl
  | restart hp _ _ hd hb hq => exact hre hq rfl
  | restoration hp _ hf hc hb hq => exact hre hq rfl
  | submit r1 r2 hp _ _ hne =>
    unfold PState.orRaise
    split
    · exact same rfl le_rfl rfl
    · rename_i s1 hc
      have e := submitNext_discarded hc
      refine same ?_ e.2 e.1
      unfold submitNext at hc
      split at hc
      · exact (submitRefine_frame hc).2.2.1
      · cases hc; rfl
  | @collect b j hp hj =>
    unfold PState.orRaise
    split
    · exact same rfl le_rfl rfl
    · rename_i s1 hc
      have e := collectJob_discarded hc
      refine same ?_ (by show _ ≤ s1.searches.length; rw [e.2]) e.1
      show s1.alg.nAtRestart = _
      obtain ⟨job, d, -, -, hcase⟩ := collectJob_cases hc
      rcases hcase with ⟨_, tb, rfl⟩ | ⟨_, hn, _, a, ha, rfl⟩ |
        ⟨_, gap, a, a', rc, rb, hg, hda, hit, hst, hcy, ha, _, _, rfl⟩
      · rfl
      · exact (endPass_iter ha).2
      · have e1 : a.nAtRestart = _ := congrArg Data.nAtRestart hda
        have e2 : (updateLog (addJob pe env s.alg job) (jobResult pe job).1 gap).nAtRestart =
            (addJob pe env s.alg job).nAtRestart := by
          obtain ⟨g', st, e⟩ := updateLog_frame (addJob pe env s.alg job) (jobResult pe job).1 gap
          rw [e]
        have e3 := (addJob_spec (pe := pe) (env := env) s.alg job).rest.2.2.2.2.1
        exact (endPass_iter ha).2.trans (e1.trans (e2.trans e3))
  | harvest j res hp hj hi hprop =>
    unfold PState.orRaise
    split
    · exact same rfl le_rfl rfl
    · rename_i s1 hc
      obtain ⟨job', -, hse, hhi, -⟩ := harvestJob_more hc
      obtain ⟨job, rd, a, tb, -, ha, hcase⟩ := harvestJob_cases hc
      have ha' : a = s.alg := by
        rcases ha with rfl | ⟨_, _, h0, _⟩
        · rfl
        · exact absurd (hi (Or.inl hP)) h0
      subst ha'
      have hlen : s1.searches.length + 1 = s.searches.length := by
        rw [hse, List.length_eraseIdx_of_lt hj]; omega
      have key : ∀ {t : PState O} (b : Bool), t.alg.nAtRestart = s.alg.nAtRestart →
          t.searches.length + 1 = s.searches.length →
          t.alg.discarded = dequePush P.discWindow s.alg.discarded b →
          (b = false → s.subs.length < t.subs.length) →
          (b = true → t.subs = s.subs ∧ t.alg.all = s.alg.all) →
          t.alg.discarded = lastOf P.discWindow (searchOutcomes s t h) := by
        intro t b h1 h2 h3 h4 h5
        unfold searchOutcomes
        rw [if_pos h1, if_pos h2, h3, hw, dequePush_lastOf]
        cases b with
        | false => rw [if_pos (h4 rfl)]
        | true =>
          obtain ⟨h6, h7⟩ := h5 rfl
          rw [if_neg (by rw [h6]; omega), if_pos (by rw [h7])]
      rcases hcase with rfl | ⟨p0, hp0, hu, ⟨b, v, -, hq⟩ | ⟨-, rfl⟩⟩
      · refine key true ?_ hlen ?_ (fun h => by cases h) (fun _ => ⟨?_, ?_⟩) <;>
          (unfold harvestDiscard; by_cases ht : job.tag = .ref <;> simp [ht, takeSearch])
      · obtain ⟨b1, e, gap, b2, hadd, hz, _, hg, he, rfl⟩ := harvestReuse_cases hq
        obtain ⟨g', st, e'⟩ := updateLog_frame b1 v gap
        have h2 := endPass_ctl he
        have h3 : b2.discarded = b1.discarded := h2.2.2.2.2.2.2.2.2.2.2.2.2.2.2.2.2.1.trans (by rw [e'])
        have h4 : b2.nAtRestart = b1.nAtRestart := h2.2.2.2.2.2.2.2.2.2.2.2.2.2.2.2.2.2.1.trans (by rw [e'])
        have h5 : b2.all = b1.all := h2.2.2.2.2.2.2.2.2.1.trans (by rw [e'])
        have h6 : b1.discarded = s.alg.discarded := hadd.ctl.2.2.2.2.2.2.2.2.2.1
        have h7 : b1.nAtRestart = s.alg.nAtRestart := hadd.rest.2.2.2.2.1
        have h8 := hadd.all
        unfold searchOutcomes
        dsimp only at hlen ⊢
        rw [if_pos (h4.trans h7), if_pos hlen, if_neg (by simp [takeSearch]), if_neg, h3, h6, hw]
        rw [h5, h8]
        simp [Table.append, takeSearch]
      · refine key false rfl hlen rfl (fun _ => ?_) (fun h => by cases h)
        simp [harvestSubmit, PState.submitEval, PState.pushTemp, takeSearch]
  | close hp =>
    unfold PState.orRaise
    split
    · exact same rfl le_rfl rfl
    · rename_i s1 hc
      obtain ⟨hn, hne, a, gap, g, st, ha, _, rfl⟩ := closeJob_cases hc
      exact same ha.rest.2.2.2.2.1 le_rfl ha.ctl.2.2.2.2.2.2.2.2.2.1

theorem PStep.cut_false {start pause : ℕ} (hs : PStep P env pe start pause s s') (hc : s.cut = false) :
    s'.cut = false := by
  cases hs.kind with
  | ctrl h => exact h.cut.trans hc
  | collect _ h e => rw [e]; exact (collectJob_cut h).trans hc
  | harvest _ _ _ h e => rw [e]; exact (harvestJob_cut h).trans hc
  | restart _ _ _ h _ e => rw [e]; have := restartPar_cut h; exact this
  | submit _ _ _ _ _ _ e => rw [e]; exact hc
  | close _ h e => rw [e]; exact (closeJob_cut h).trans hc

theorem withGap_keep {t : PState O} : (withGap P t).alg = t.alg ∧ (withGap P t).cut = t.cut := by
  unfold withGap
  split <;> exact ⟨rfl, rfl⟩

theorem PHistory.cut_false (hh : PHistory P env pe o c s h) : s.cut = false := by
  induction hh with
  | init => rfl
  | call pause _ hs _ ih =>
    cases hs with
    | zeroFrequency => exact ih
    | firstFails => exact ih
    | first _ _ hr => exact withGap_keep.2.trans (restartPar_cut hr)
    | resumed => exact withGap_keep.2.trans ih
  | step _ hs _ ih => exact hs.cut_false ih
  | ret _ _ ih => exact ih
  | load _ ih => exact ih

theorem PHistory.lt (hP : P.twoPhase = false) {start pause : ℕ}
    (hh : PHistory P env pe o (.running start pause) s h) : s.alg.nAtRestart < s.alg.all.pos.length := by
  have hr := hh.reach
  have hne : s.alg.cur.pos ≠ [] :=
    ((hr.nonempty hP).1 (fun h => by cases h)).resolve_left
      (fun ⟨e, he⟩ => hh.noRaise (fun h => by cases h) e he)
  have hwf := hr.book.wf.tail hh.cut_false
  have := hwf.pos.length_eq
  rw [List.length_drop] at this
  have hpos := List.length_pos_iff.mpr hne
  omega

/-- The deque of the object holds the last outcomes. -/
theorem PHistory.window (hP : P.twoPhase = false) (hh : PHistory P env pe o c s h) :
    s.alg.discarded = lastOf P.discWindow h := by
  induction hh with
  | init => rw [lastOf_nil]; rfl
  | @call s s' h pause hh hs hra ih =>
    cases hs with
    | zeroFrequency => exact absurd rfl (hra _)
    | firstFails => exact absurd rfl (hra _)
    | first _ h0 hr =>
      obtain ⟨pts, noisy, o, done, rest, prev, u, calls, a, m, M, i, hq⟩ := restartPar_ok hr
      rw [withGap_keep.1, if_pos h0, lastOf_nil, hq.eq]
      exact hq.install.discarded
    | resumed _ h0 =>
      rw [withGap_keep.1, if_neg h0]
      exact ih
  | step hh hs _ ih =>
    exact searchOutcomes_window hP hh.reach hh.cut_false (hh.noRaise (fun h => by cases h)) hs ih
  | ret _ _ ih => exact ih
  | load _ ih => exact ih

theorem PHistory.due (hP : P.twoPhase = false) (hh : PHistory P env pe o c s h) :
    RestartDue P s.alg ↔
      s.alg.step ≤ P.firstStep ∧ (TooManyDiscarded P h ∨ StalledWithBudget P s.alg) := by
  have hw := hh.window hP
  unfold RestartDue TooManyDiscarded StalledWithBudget
  rw [hw]
/-- **C95** (parallel) When does a parallel run start over?  Only if no evaluation and no search is outstanding,
and then for one of these reasons: it is about to hand out the search of the first step of a cycle, and too many
of the last `discarded_window_size * num_cpus` searches since the last restart were given up, or it has stalled
and there is budget left; or the interpolation model cannot be built.  Conversely, if one of the first two
reasons applies when a worker is free and the first step of a cycle is next, then the run starts over if nothing
is outstanding (or ends with an exception), and waits otherwise. -/
theorem C95_parallel_restart_rule (hP : P.twoPhase = false) {start pause : ℕ}
    (hh : PHistory P env pe o (.running start pause) s h) (hs : PStep P env pe start pause s s') :
    (s'.alg.nAtRestart ≠ s.alg.nAtRestart →
      s.evals = [] ∧ s.searches = [] ∧
      ((s.pc = .submit ∧ s.alg.step ≤ P.firstStep ∧
          (TooManyDiscarded P h ∨ StalledWithBudget P s.alg)) ∨
       (s.pc = .model ∧ (s.alg.step = P.numGlobal + 3 ∨
         ((∃ a : Alg O, (env.modelFails a).1 = true ∧ a.cur = s.alg.cur) ∧
          (s.alg.cur.pos.length + s.tPos.length < P.n + 1 ∨ s.alg.solveUnder = true)))))) ∧
    (s.pc = .submit → s.evals.length + s.searches.length < pe.numCpus →
      (s.alg.step = 0 → P.doInf = true) → (s.alg.step = P.numGlobal + 1 → P.doLocal = true) →
      s.alg.step ≤ P.firstStep → TooManyDiscarded P h ∨ StalledWithBudget P s.alg →
      (s.evals = [] ∧ s.searches = [] →
        (∃ e, s'.pc = .raised e) ∨ s'.alg.nAtRestart = s.alg.all.pos.length ∧
          s'.alg.nAtRestart ≠ s.alg.nAtRestart) ∧
      (s.evals ≠ [] ∨ s.searches ≠ [] → s' = { s with pc := .top })) := by
  have hr := hh.reach
  have hdue := hh.due hP
  refine ⟨fun hch => ?_, fun hp hf h1 h2 h3 h4 => ⟨?_, ?_⟩⟩
  · obtain ⟨e1, e2, hreason⟩ := C23_parallel_restart_reasons hr hs hch
    refine ⟨e1, e2, ?_⟩
    rcases hreason with ⟨h1, h2⟩ | ⟨h1, h2⟩ | ⟨h1, h2⟩
    · exact .inl ⟨h1, hdue.mp h2⟩
    · exact .inr ⟨h1, .inl h2⟩
    · exact .inr ⟨h1, .inr h2⟩
  · rintro ⟨e1, e2⟩
    obtain ⟨r, hq, rfl⟩ := C23_parallel_restart_happens hp hf ⟨h1, h2⟩ (hdue.mpr ⟨h3, h4⟩) e1 e2 hs
    unfold PState.orRaise
    split
    · exact .inl ⟨_, rfl⟩
    · right
      obtain ⟨pts, noisy, o, done, rest, prev, u, calls, a, m, M, i, hq⟩ := restartPar_ok hq
      have e : a.nAtRestart = s.alg.all.pos.length := hq.install.nAt
      rw [hq.eq]
      refine ⟨e, ?_⟩
      show a.nAtRestart ≠ _
      have := hh.lt hP
      omega
  · intro hb
    have hfull : parFull pe s = false := by
      unfold parFull; rw [decide_eq_false_iff_not]; omega
    have hskip : parSkip P s = false := by
      unfold parSkip; rw [decide_eq_false_iff_not]
      rintro (⟨h5, h6⟩ | ⟨h5, h6⟩)
      · rw [h1 h5] at h6; cases h6
      · rw [h2 h5] at h6; cases h6
    have hbusy : parBusy s = true := by
      unfold parBusy; rw [decide_eq_true_iff]; exact hb
    have hd := shouldRestart_iff.mpr (hdue.mpr ⟨h3, h4⟩)
    cases hs with
    | waitRestart => rfl
    | _ => simp_all

/-- **C95** (parallel) Every state of a parallel run in which no exception was raised has a history, whatever the
history before. -/
theorem C95_parallel_history_exists {start pause : ℕ}
    (hh : PHistory P env pe o (.running start pause) s h) (hs : PStep P env pe start pause s s')
    (hra : ∀ e, s'.pc ≠ .raised e) :
    ∃ h', PHistory P env pe o (.running start pause) s' h' ∧
      (s'.alg.nAtRestart = s.alg.nAtRestart → h' = h ∨ ∃ b, h' = h ++ [b]) := by
  refine ⟨_, hh.step hs hra, fun he => ?_⟩
  unfold searchOutcomes
  rw [if_pos he]
  split_ifs
  · exact .inr ⟨_, rfl⟩
  · exact .inr ⟨_, rfl⟩
  · exact .inl rfl
  · exact .inl rfl

end Rbfopt
