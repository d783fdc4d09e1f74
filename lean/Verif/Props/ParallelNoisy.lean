import Verif.Lemmas.ParallelIter
import Verif.Lemmas.ParallelStep
import Verif.Props.ParallelEnd

/-! # The limit on noisy evaluations in the parallel engine (C10) -/

namespace Rbfopt

variable {O : Type} {P : Params} {env : Env O} {pe : PEnv O}

/-- Number of evaluations whose results were ignored so far. -/
def PState.ignored (s : PState O) : ℕ := s.hist.countP (fun x => x.2 == Fate.skipped)

/-- Number of outstanding searches whose result will be evaluated with `evaluate_noisy()`. -/
def PState.pendingNoisy (s : PState O) : ℕ := s.searches.countP (fun x => x.noisy)

theorem endPass_noisy {s s' : Alg O} (hP : P.twoPhase = true) (h : endPass P s = .ok s')
    (hm : s'.mode = .noisy) : s'.noisyEvalcount < P.maxNoisyEval := by
  unfold endPass at h
  dsimp only at h
  split at h
  · cases h
  · cases h
    unfold phaseUpdate at hm ⊢
    split at hm
    · cases hm
    · rename_i hc
      rw [if_neg hc]
      push Not at hc
      exact (hc hP hm).2.2

theorem restartBegin_noisy {s s1 : PState O} {prev : Table} {N : ℕ}
    (hN : ∀ a pts o, env.initNodes a = .ok (pts, o) → pts.length ≤ N)
    (h : restartBegin P env s = .ok (s1, prev)) :
    s1.alg.noisyEvalcount = s.alg.noisyEvalcount ∨
      (s.alg.noisyEvalcount + P.n + 1 < P.maxNoisyEval ∧
        s1.alg.noisyEvalcount ≤ s.alg.noisyEvalcount + N) := by
  obtain ⟨pts, noisy, o, rfl, -, -, -, hs⟩ := restartBegin_cases h
  cases noisy with
  | false => left; simp [beginAlg]
  | true =>
    rcases hs with ⟨_, _, rfl, _⟩ | ⟨nodePos, a, hi, _, hl, _⟩
    · left; simp [beginAlg]
    · have hlen := hN _ _ _ hi
      by_cases h0 : pts = []
      · subst h0; left; simp [beginAlg]
      right
      refine ⟨?_, by simp only [beginAlg, if_true]; omega⟩
      by_contra hc
      unfold restartBegin at h
      dsimp only at h
      split at h
      · split at h
        · cases h
        · split at h
          · cases h
          · rename_i r hr
            have hacc : ∀ (o' : O), restartAccurate P { s.alg with
                numNoisyRestarts := s.alg.numNoisyRestarts + (if s.alg.mode = .noisy then 1 else 0)
                nAtRestart := s.alg.all.pos.length, opq := o' } = true := by
              intro o'
              simp only [restartAccurate, decide_eq_true_eq]
              right; right; omega
            rw [hacc] at h
            simp only [Except.ok.injEq, Prod.mk.injEq] at h
            have h1 := congrArg (fun t : PState O => t.alg.noisyEvalcount) h.1
            simp only [submitInit_eq, beginAlg] at h1
            have hp : pts.length ≠ 0 := by simpa using h0
            simp at h1
            exact h0 h1
      · simp only [Except.ok.injEq, Prod.mk.injEq] at h
        have h1 := congrArg (fun t : PState O => t.alg.noisyEvalcount) h.1
        simp [beginAlg] at h1
        exact h0 h1

theorem restartPar_noisy {s s' : PState O} {N : ℕ}
    (hN : ∀ a pts o, env.initNodes a = .ok (pts, o) → pts.length ≤ N)
    (h : RestartPar P env pe s (.ok s')) :
    (s'.alg.noisyEvalcount = s.alg.noisyEvalcount ∨
      (s.alg.noisyEvalcount + P.n + 1 < P.maxNoisyEval ∧
        s'.alg.noisyEvalcount ≤ s.alg.noisyEvalcount + N)) ∧
    s'.alg.mode = s.alg.mode ∧ s'.searches = s.searches ∧ s.ignored ≤ s'.ignored := by
  obtain ⟨pts, noisy, o, done, rest, prev, u, calls, a, m, M, i, hp⟩ := restartPar_ok h
  have hmode : a.mode = s.alg.mode := hp.install.mode
  have hnev : a.noisyEvalcount = (beginAlg s.alg o noisy pts.length).noisyEvalcount := hp.install.nev
  refine ⟨?_, by rw [hp.eq]; exact hmode, by rw [hp.eq]; rfl, ?_⟩
  · generalize hr : (Except.ok s' : Except PyErr (PState O)) = r at h
    cases h with
    | failed h => cases hr
    | @ends s1 prev sel done rest hb _ _ _ =>
      have h1 := restartBegin_noisy hN hb
      have h2 : s'.alg.noisyEvalcount = s1.alg.noisyEvalcount := by
        symm at hr
        unfold restartEnd at hr
        dsimp only at hr
        split at hr
        · cases hr
        · rename_i t a1 hu
          split at hr
          · cases hr
          · rename_i a2 hi
            simp only [Except.ok.injEq] at hr
            obtain ⟨m, M, i, ho⟩ := restartInstall_spec hi
            have e1 : a2.noisyEvalcount = a1.noisyEvalcount := ho.nev
            have e2 : a1.noisyEvalcount = s1.alg.noisyEvalcount := by
              obtain ⟨pts, noisy, o, rfl, q1, q2, q3, q4⟩ := restartBegin_cases hb
              obtain ⟨_, calls, u, _, _, e, _⟩ :=
                restartUser_spec hu ((initTable_aligned _ _).append q2)
              rw [e]
            rw [← hr]
            show a2.noisyEvalcount = _
            omega
      rw [h2]; exact h1
  · rw [hp.eq]
    simp [PState.ignored, PState.fates, List.countP_append]

/-- Invariant: `C` bounds the count at the last check, `B` the number of outstanding jobs, `k` is the
number of ignored results at the start of the call. -/
def NoisyInv (C B k : ℕ) (s : PState O) : Prop :=
  (s.alg.mode = .noisy → s.pc.Active →
    s.alg.noisyEvalcount + k ≤ C + s.evals.length + s.ignored) ∧
  s.alg.noisyEvalcount + s.pendingNoisy + k ≤ C + B + s.ignored

theorem pendingNoisy_le (s : PState O) : s.pendingNoisy ≤ s.searches.length :=
  List.countP_le_length

theorem PStep.active {s s' : PState O} {st pa : ℕ} (hs : PStep P env pe st pa s s') :
    s'.pc.Active → s.pc.Active := by
  cases hs with
  | close hp =>
    unfold PState.orRaise
    split <;> exact fun h => absurd h id
  | finish hp => exact fun h => absurd h id
  | _ => intro _; simp_all [PC.Active]

theorem NoisyInv.step {s s' : PState O} {C B k N : ℕ} (hP : P.twoPhase = true)
    (hN : ∀ a pts o, env.initNodes a = .ok (pts, o) → pts.length ≤ N)
    (hC : max P.maxNoisyEval 1 - 1 + (N - (P.n + 1)) ≤ C)
    (hk : k ≤ s.ignored) (hb : s'.evals.length + s'.searches.length ≤ B)
    (hact0 : s'.pc.Active → s.pc.Active) (h : NoisyInv C B k s) (hs : StepKind P env pe s s') :
    s.ignored ≤ s'.ignored ∧ NoisyInv C B k s' := by
  have hsub := pendingNoisy_le s'
  -- it is enough to show the second part when the loop is not active or the mode is accurate
  have hfin : ∀ {t : PState O}, t.evals.length + t.searches.length ≤ B →
      (t.alg.mode = .noisy → t.pc.Active →
        t.alg.noisyEvalcount + k ≤ C + t.evals.length + t.ignored) →
      (¬ (t.alg.mode = .noisy ∧ t.pc.Active) →
        t.alg.noisyEvalcount + t.pendingNoisy + k ≤ C + B + t.ignored) → NoisyInv C B k t := by
    intro t hb h1 h2
    refine ⟨h1, ?_⟩
    by_cases hc : t.alg.mode = .noisy ∧ t.pc.Active
    · have := h1 hc.1 hc.2
      have := pendingNoisy_le t
      omega
    · exact h2 hc
  cases hs with
  | ctrl hc =>
    have e1 : s'.alg.noisyEvalcount = s.alg.noisyEvalcount := congrArg Data.noisyEvalcount hc.data
    have e2 : s'.alg.mode = s.alg.mode := congrArg Data.mode hc.data
    unfold NoisyInv PState.ignored PState.pendingNoisy at *
    rw [e1, e2, hc.hist, hc.evals, hc.searches]
    exact ⟨le_refl _, fun hm ha => h.1 hm (hc.active ha), h.2⟩
  | @collect b j s1 hp hc e =>
    subst e
    have ha0 : s.pc.Active := by rw [hp]; trivial
    obtain ⟨job, d, hj, _, ⟨_, tb, rfl⟩ | ⟨_, hn, _, a, ha, rfl⟩ |
      ⟨_, gap, a, a', rc, rb, _, hda, _, _, _, ha, _, _, rfl⟩⟩ := collectJob_cases hc
    · have hlen := (perm_take hj).length_eq
      simp only [List.length_cons] at hlen
      have e : ({ ({ takeJob pe s j job with tabu := tb } : PState O).fate job.id .skipped with
          pc := .evals b } : PState O).ignored = s.ignored + 1 := by
        simp [PState.ignored, PState.fate, takeJob, PState.popTemp, List.countP_append]
      refine ⟨by rw [e]; omega, fun hm _ => ?_, ?_⟩
      · have := h.1 hm ha0
        rw [e]
        simp only [PState.fate, takeJob, PState.popTemp]
        omega
      · have := h.2
        rw [e]
        simp only [PState.fate, takeJob, PState.popTemp, PState.pendingNoisy] at this ⊢
        omega
    · have e : ({ collectRepeat env (takeJob pe s j job) job (jobResult pe job).1 with
          alg := a, pc := .evals b } : PState O).ignored = s.ignored := by
        simp [PState.ignored, PState.fate, takeJob, PState.popTemp, List.countP_append,
          collectRepeat, PState.submitEval, PState.pushTemp]
      obtain ⟨-, -, -, -, -, -, -, -, -, -, -, c3, -⟩ := endPass_ctl ha
      simp only at c3
      refine ⟨le_of_eq e.symm, fun hm _ => ?_, ?_⟩
      · have := endPass_noisy hP ha hm
        rw [e]
        show a.noisyEvalcount + k ≤ _
        omega
      · have := h.2
        rw [e]
        show a.noisyEvalcount + s.pendingNoisy + k ≤ _
        omega
    · obtain ⟨-, -, -, -, -, -, -, -, -, -, -, c3, -⟩ := endPass_ctl ha
      have hadd := addJob_spec (pe := pe) (env := env) s.alg job
      obtain ⟨g, st, hl⟩ := updateLog_frame (addJob pe env s.alg job) (jobResult pe job).1 gap
      rw [hl] at hda
      have d3 : a.noisyEvalcount = (addJob pe env s.alg job).noisyEvalcount :=
        congrArg Data.noisyEvalcount hda
      rw [hadd.rest.2.2.1] at d3
      have e : ({ ({ takeJob pe s j job with alg := a', gap := gap, refCount := rc, refBusy := rb } :
          PState O).fate job.id .recorded with pc := .evals b } : PState O).ignored = s.ignored := by
        simp [PState.ignored, PState.fate, takeJob, PState.popTemp, List.countP_append]
      refine ⟨le_of_eq e.symm, fun hm _ => ?_, ?_⟩
      · have := endPass_noisy hP ha hm
        rw [e]
        show a'.noisyEvalcount + k ≤ _
        omega
      · have := h.2
        rw [e]
        show a'.noisyEvalcount + s.pendingNoisy + k ≤ _
        omega
  | @harvest j res s1 hp hi hpr hc e =>
    subst e
    have ha0 : s.pc.Active := by rw [hp]; trivial
    obtain ⟨job, rd, a, tb, hj, ha, hcase⟩ := harvestJob_cases hc
    have hcnt := countP_eraseIdx (fun x : SearchJob => x.noisy) hj
    have ha' : a.noisyEvalcount = s.alg.noisyEvalcount ∧ a.mode = s.alg.mode := by
      rcases ha with rfl | ⟨_, _, _, _, _, hr⟩
      · exact ⟨rfl, rfl⟩
      · obtain ⟨_, _, rfl⟩ := removeNode_spec hr
        exact ⟨rfl, rfl⟩
    have h2 := h.2
    simp only [PState.pendingNoisy] at h2
    rcases hcase with rfl | ⟨p0, hp0, hu, ⟨b, v, hr, hre⟩ | ⟨hr, rfl⟩⟩
    · obtain ⟨nc, rc, rb, _, _, e⟩ := harvestDiscard_eq (P := P) (takeSearch s j rd a tb) job.tag
      rw [e]
      refine ⟨le_refl _, fun hm _ => ?_, ?_⟩
      · have := h.1 (ha'.2 ▸ hm) ha0
        show a.noisyEvalcount + k ≤ C + s.evals.length + s.ignored
        omega
      · show a.noisyEvalcount + (s.searches.eraseIdx j).countP (fun x => x.noisy) + k ≤
          C + B + s.ignored
        omega
    · obtain ⟨a1, e, gap, a2, hadd, hz, _, hg, he, rfl⟩ := harvestReuse_cases hre
      obtain ⟨-, -, -, -, -, -, -, -, -, -, -, c3, -⟩ := endPass_ctl he
      obtain ⟨g, st, hl⟩ := updateLog_frame a1 v gap
      rw [hl] at c3
      simp only at c3
      have e2 : a1.noisyEvalcount = a.noisyEvalcount := hadd.rest.2.2.1
      refine ⟨le_refl _, fun hm _ => ?_, ?_⟩
      · have := endPass_noisy hP he hm
        show a2.noisyEvalcount + k ≤ C + s.evals.length + s.ignored
        omega
      · show a2.noisyEvalcount + (s.searches.eraseIdx j).countP (fun x => x.noisy) + k ≤
          C + B + s.ignored
        omega
    · refine ⟨le_refl _, fun hm _ => ?_, ?_⟩
      · have := h.1 (ha'.2 ▸ hm) ha0
        show a.noisyEvalcount + (if job.noisy = true then 1 else 0) + k ≤
          C + (s.evals ++ [_]).length + s.ignored
        rw [List.length_append, List.length_singleton]
        split <;> omega
      · show a.noisyEvalcount + (if job.noisy = true then 1 else 0) +
          (s.searches.eraseIdx j).countP (fun x => x.noisy) + k ≤ C + B + s.ignored
        cases hn : job.noisy <;> rw [hn] at hcnt <;> simp at hcnt ⊢ <;> omega
  | @restart s0 s1 pc hc he hse hr hpc e =>
    subst e
    have e1 : s0.alg.noisyEvalcount = s.alg.noisyEvalcount := congrArg Data.noisyEvalcount hc.data
    have e2 : s0.alg.mode = s.alg.mode := congrArg Data.mode hc.data
    obtain ⟨r1, r2, r3, r4⟩ := restartPar_noisy hN hr
    rw [hc.searches, hse] at r3
    have e3 : s0.ignored = s.ignored := by unfold PState.ignored; rw [hc.hist]
    have h2 := h.2
    refine ⟨by rw [← e3]; exact r4, hfin hb (fun hm _ => ?_) (fun _ => ?_)⟩
    · have hact : s.pc.Active := hact0 (by rcases hpc with rfl | rfl <;> trivial)
      have h1 := h.1 (e2 ▸ r2 ▸ hm) hact
      rw [he, List.length_nil] at h1
      show s1.alg.noisyEvalcount + k ≤ C + s1.evals.length + s1.ignored
      omega
    · show s1.alg.noisyEvalcount + s1.searches.countP (fun x => x.noisy) + k ≤ C + B + s1.ignored
      rw [r3, List.countP_nil]
      simp only [PState.pendingNoisy, hse, List.countP_nil] at h2
      omega
  | @submit a rd rb noisy tag hp hda hit hn _ _ e =>
    subst e
    have ha0 : s.pc.Active := by rw [hp]; trivial
    have e1 : a.noisyEvalcount = s.alg.noisyEvalcount := congrArg Data.noisyEvalcount hda
    have e2 : a.mode = s.alg.mode := congrArg Data.mode hda
    refine ⟨le_refl _, hfin hb (fun hm _ => ?_) (fun hc => ?_)⟩
    · have := h.1 (e2 ▸ hm) ha0
      show a.noisyEvalcount + k ≤ C + s.evals.length + s.ignored
      omega
    · have hacc : ¬ s.alg.mode = .noisy := fun hm => hc ⟨e2.trans hm, trivial⟩
      have h2 := h.2
      simp only [PState.pendingNoisy] at h2
      show a.noisyEvalcount + (s.searches ++ [(⟨noisy, tag⟩ : SearchJob)]).countP (fun x : SearchJob => x.noisy) + k ≤
        C + B + s.ignored
      rw [hn, decide_eq_false hacc, List.countP_append]
      simp
      omega
  | close hp hc e =>
    subst e
    obtain ⟨hn, hne, a, gap, g, st, ha, _, rfl⟩ := closeJob_cases hc
    have e3 : a.noisyEvalcount = s.alg.noisyEvalcount := ha.rest.2.2.1
    have h2 := h.2
    have e : ∀ i : ℕ, (s.hist ++ [(i, Fate.recorded)]).countP
        (fun x : ℕ × Fate => x.2 == Fate.skipped) = s.ignored := by
      simp [PState.ignored, List.countP_append]
    refine ⟨le_of_eq (e _).symm, fun _ hact => absurd hact id, ?_⟩
    show a.noisyEvalcount + s.pendingNoisy + k ≤ C + B +
      (s.hist ++ [(_, Fate.recorded)]).countP (fun x : ℕ × Fate => x.2 == Fate.skipped)
    rw [e]
    omega

theorem start_noisy {N : ℕ} (hN : ∀ a pts o, env.initNodes a = .ok (pts, o) → pts.length ≤ N)
    {s0 s : PState O} (h : PStart P env pe s0 s) :
    s0.ignored ≤ s.ignored ∧ s.searches = [] ∧
    (s.alg.noisyEvalcount = s0.alg.noisyEvalcount ∨
      s.alg.noisyEvalcount ≤ max P.maxNoisyEval 1 - 1 + (N - (P.n + 1))) := by
  have hw : ∀ t : PState O, (withGap P t).alg = t.alg ∧ (withGap P t).searches = t.searches ∧
      (withGap P t).ignored = t.ignored := by
    intro t; unfold withGap; split <;> exact ⟨rfl, rfl, rfl⟩
  cases h with
  | zeroFrequency _ => exact ⟨le_refl _, rfl, Or.inl rfl⟩
  | firstFails _ _ _ => exact ⟨le_refl _, rfl, Or.inl rfl⟩
  | @first s1 _ _ hr =>
    obtain ⟨w1, w2, w3⟩ := hw s1
    obtain ⟨r1, r2, r3, r4⟩ := restartPar_noisy hN hr
    rw [w1, w2, w3, r3]
    have r4' : s0.ignored ≤ s1.ignored := r4
    have r1' : s1.alg.noisyEvalcount = s0.alg.noisyEvalcount ∨
      (s0.alg.noisyEvalcount + P.n + 1 < P.maxNoisyEval ∧
        s1.alg.noisyEvalcount ≤ s0.alg.noisyEvalcount + N) := r1
    refine ⟨r4', rfl, ?_⟩
    rcases r1' with h | ⟨h1, h2⟩
    · exact Or.inl h
    · right; omega
  | resumed _ _ =>
    obtain ⟨w1, w2, w3⟩ := hw { s0.fresh with refCount := (s0.alg.itercount : ℚ) / P.refFreq }
    rw [w1, w2, w3]
    exact ⟨le_refl _, rfl, Or.inl rfl⟩

theorem CallReach.noisyInv {o : O} {s0 s : PState O} {pause N : ℕ} (hP : P.twoPhase = true)
    (hN : ∀ a pts o, env.initNodes a = .ok (pts, o) → pts.length ≤ N)
    (h : CallReach P env pe o s0 pause s) :
    s0.ignored ≤ s.ignored ∧ NoisyInv (max s0.alg.noisyEvalcount
      (max P.maxNoisyEval 1 - 1 + (N - (P.n + 1)))) (max pe.numCpus (N + 1)) s0.ignored s := by
  induction h with
  | start h1 h2 =>
    obtain ⟨e1, e2, e3⟩ := start_noisy hN h2
    refine ⟨e1, fun _ _ => by omega, ?_⟩
    simp only [PState.pendingNoisy, e2, List.countP_nil]
    omega
  | step h1 hs ih =>
    have hr' := PReach.step h1.reach hs
    have hb := hr'.book.bound
    have hl := hr'.left_le hN
    obtain ⟨i1, i2⟩ := NoisyInv.step hP hN (le_max_right _ _) ih.1 (by omega) hs.active ih.2 hs.kind
    exact ⟨ih.1.trans i1, i2⟩

theorem CallReach.idle {o : O} {s0 s : PState O} {pause : ℕ} (h : CallReach P env pe o s0 pause s) :
    PReach P env pe o .idle s0 := by
  induction h with
  | start h1 _ => exact h1
  | step _ _ ih => exact ih

/-- **C10** In the parallel engine the number of evaluations submitted to `evaluate_noisy()` is checked
against `max_noisy_evaluations` only when a result is recorded.  At any time of a call of `optimize()` it
exceeds the limit (or the number at the start of the call, if that is greater), extended by the excess
of an initial sample over `n + 1` points, by at most the number of jobs that can be outstanding at
once and the number of results that were ignored during this call. -/
theorem C10_parallel_noisy_budget {o : O} {s0 s : PState O} {pause N : ℕ} (hP : P.twoPhase = true)
    (hN : ∀ a pts o, env.initNodes a = .ok (pts, o) → pts.length ≤ N)
    (h : CallReach P env pe o s0 pause s) :
    s.subs.countP (fun x => x.2.1 == true) ≤
      max (s0.subs.countP (fun x => x.2.1 == true))
        (max P.maxNoisyEval 1 - 1 + (N - (P.n + 1))) +
      max pe.numCpus (N + 1) +
      (s.hist.countP (fun x => x.2 == Fate.skipped) - s0.hist.countP (fun x => x.2 == Fate.skipped)) := by
  obtain ⟨h1, -, h2⟩ := h.noisyInv hP hN
  have e1 : s.alg.noisyEvalcount = s.subs.countP (fun x => x.2.1 == true) := h.reach.recs.noisy
  have e0 : s0.alg.noisyEvalcount = s0.subs.countP (fun x => x.2.1 == true) := h.idle.recs.noisy
  rw [← e1, ← e0]
  unfold PState.ignored at h1 h2
  omega

end Rbfopt
