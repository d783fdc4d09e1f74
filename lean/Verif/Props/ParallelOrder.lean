import Verif.Props.ParallelStop
import Verif.Lemmas.RestartMore

/-!
# The order of the steps of a parallel run, refinement frequency, restarts (C19, C21, C23)
-/

namespace Rbfopt

variable {O : Type} {P : Params} {env : Env O} {pe : PEnv O} {o : O} {c : PCtl} {s s' : PState O}

/-- The next step of the cycle `0 (global exploration), 1 .. numGlobal (global search),
numGlobal + 1 (local search)`; a new cycle is counted when the first step comes again. -/
def NextStep (P : Params) (st : ℕ) (cyc : ℤ) (st' : ℕ) (cyc' : ℤ) : Prop :=
  (st ≤ P.numGlobal ∧ st' = st + 1 ∧ cyc' = cyc) ∨ (st = P.numGlobal + 1 ∧ st' = 0 ∧ cyc' = cyc + 1)

theorem advanceStep_next {a : Alg O} (h : a.step ≤ P.numGlobal + 1) :
    NextStep P a.step a.cyc (advanceStep P a).step (advanceStep P a).cyc := by
  unfold NextStep advanceStep Params.cycleLength
  dsimp only
  rcases Nat.lt_or_eq_of_le h with h1 | h1
  · left
    have : (a.step + 1) % (P.numGlobal + 2) = a.step + 1 := Nat.mod_eq_of_lt (by omega)
    rw [this]
    exact ⟨by omega, rfl, if_neg (by omega)⟩
  · right
    have : (a.step + 1) % (P.numGlobal + 2) = 0 := by rw [h1]; exact Nat.mod_self _
    rw [this]
    exact ⟨h1, rfl, if_pos (by omega)⟩

theorem endPass_step {a b : Alg O} (h : endPass P a = .ok b) : b.step = a.step ∧ b.cyc = a.cyc :=
  ⟨(endPass_ctl h).2.1, (endPass_ctl h).2.2.1⟩

theorem updateLog_step {a : Alg O} {v : ℚ} {g : EVal} :
    (updateLog a v g).step = a.step ∧ (updateLog a v g).cyc = a.cyc := by
  obtain ⟨g', st, e⟩ := updateLog_frame a v g
  rw [e]; exact ⟨rfl, rfl⟩

theorem initRef_step {a b : Alg O} (h : initRefIfNeeded env a = .ok b) :
    b.step = a.step ∧ b.cyc = a.cyc := by
  rcases initRefIfNeeded_cases h with ⟨-, -, set, rad, o, -, rfl⟩ | ⟨-, rfl⟩ <;> exact ⟨rfl, rfl⟩

/-- One refinement step is submitted, or the linear model cannot be built and the step is skipped. -/
theorem submitRefine_step {t t' : PState O} {r1 r2 : Bool} (h : submitRefine P env t r1 r2 = .ok t') :
    (∃ a, t' = ({ t with alg := a, rankDef := r2, refBusy := true } : PState O).submitSearch
        (decide (t.alg.mode = .noisy)) .ref ∧ a.step = t.alg.step ∧ a.cyc = t.alg.cyc) ∨
    (∃ a b, t' = { t with alg := advanceStep P a } ∧ a.step = t.alg.step ∧ a.cyc = t.alg.cyc ∧
      (env.linFails b).1 = true) := by
  unfold submitRefine at h
  split at h
  · cases h
  · rename_i a ha
    have hd : a.step = t.alg.step ∧ a.cyc = t.alg.cyc ∧ a.mode = t.alg.mode := by
      split at ha
      · rcases initRefIfNeeded_cases ha with ⟨-, -, set, rad, o, -, rfl⟩ | ⟨-, rfl⟩ <;>
          exact ⟨rfl, rfl, rfl⟩
      · cases ha; exact ⟨rfl, rfl, rfl⟩
    dsimp only at h
    split at h
    · rename_i hf
      cases h
      exact .inr ⟨_, _, rfl, hd.1, hd.2.1, hf⟩
    · cases h
      refine .inl ⟨{ a with numCons := t.alg.numCons, opq := (env.linFails { a with numCons := t.alg.numCons }).2 }, ?_, hd.1, hd.2.1⟩
      rw [← hd.2.2]

/-- The steps `optimize_parallel` can be at. -/
theorem PReach.step_range (h : PReach P env pe o c s) :
    s.alg.step ≤ P.numGlobal + 1 ∨ s.alg.step = P.numGlobal + 3 := by
  have hw : ∀ {q : PState O}, (withGap P q).alg = q.alg := by
    intro q; unfold withGap; split <;> rfl
  have hre : ∀ {t t' : PState O}, RestartPar P env pe t (.ok t') → t'.alg.step ≤ P.numGlobal + 1 := by
    intro t t' hr
    obtain ⟨pts, noisy, o, done, rest, prev, u, calls, a, m, M, i, hq⟩ := restartPar_ok hr
    rw [hq.eq]
    dsimp only [PState.fates]
    rw [hq.install.step]
    have := firstStep_le P
    omega
  induction h with
  | init => left; simp [Alg.init]
  | call pause h1 h2 ih =>
    cases h2 with
    | zeroFrequency => exact ih
    | firstFails => exact ih
    | first _ _ hr => rw [hw]; exact .inl (hre hr)
    | resumed => rw [hw]; exact ih
  | ret _ _ ih => exact ih
  | load _ _ ih => exact ih
  | raises _ hc ih =>
    obtain ⟨-, rfl | ⟨s1, -, -, -, hr, hs⟩⟩ := hc.cases
    · exact ih
    · obtain ⟨pts, noisy, o, rfl, -, -⟩ := hr.frame
      rcases hs with rfl | ⟨o, rfl⟩
      · exact ih
      · exact Or.inr rfl
  | firstRaises _ _ _ hr ih =>
    obtain ⟨pts, noisy, o, rfl, -, -⟩ := hr.frame
    exact ih
  | @step s s' start pause hr hs ih =>
    cases hs with
    | skip hp hf hsk =>
      left
      have h0 : (0 : ℕ) < P.cycleLength := by unfold Params.cycleLength; omega
      have := Nat.mod_lt (s.alg.step + 1) h0
      unfold Params.cycleLength at this
      show (s.alg.step + 1) % P.cycleLength ≤ _
      unfold Params.cycleLength
      omega
    | waitRestoration => right; rfl
    | restart _ _ _ _ _ hr =>
      unfold PState.orRaise
      split
      · exact ih
      · have := hre hr
        exact .inl this
    | restoration _ _ _ _ _ hr =>
      unfold PState.orRaise
      split
      · exact ih
      · have := hre hr
        exact .inl this
    | submit r1 r2 hp _ _ hne =>
      have hle : s.alg.step ≤ P.numGlobal + 1 := ih.resolve_right hne
      have hadv : ∀ a : Alg O, (advanceStep P a).step ≤ P.numGlobal + 1 := by
        intro a
        have h0 : (0 : ℕ) < P.cycleLength := by unfold Params.cycleLength; omega
        have := Nat.mod_lt (a.step + 1) h0
        unfold Params.cycleLength at this
        show (a.step + 1) % P.cycleLength ≤ _
        unfold Params.cycleLength
        omega
      unfold PState.orRaise
      split
      · exact ih
      · rename_i s1 hc
        unfold submitNext at hc
        split at hc
        · rcases submitRefine_step hc with ⟨a, rfl, h1, -⟩ | ⟨a, b, rfl, -⟩
          · left
            show a.step ≤ _
            rw [h1]; exact hle
          · exact .inl (hadv _)
        · cases hc
          exact .inl (hadv _)
    | collect j hp hj =>
      unfold PState.orRaise
      split
      · exact ih
      · rename_i s1 hc
        obtain ⟨job, d, -, -, hcase⟩ := collectJob_cases hc
        rcases hcase with ⟨_, tb, rfl⟩ | ⟨_, hn, _, a, ha, rfl⟩ |
          ⟨_, gap, a, a', rc, rb, hg, hda, hit, hst, _, ha, _, _, rfl⟩
        · exact ih
        · have := (endPass_step ha).1
          dsimp only at this ⊢
          rw [this]; exact ih
        · have := (endPass_step ha).1
          dsimp only [PState.fate] at this ⊢
          rw [this, hst]; exact ih
    | harvest j res hp hj hi hprop =>
      unfold PState.orRaise
      split
      · exact ih
      · rename_i s1 hc
        obtain ⟨job, rd, a, tb, -, ha, hcase⟩ := harvestJob_cases hc
        have ha' : a.step = s.alg.step := by
          rcases ha with rfl | ⟨_, _, _, _, _, h⟩
          · rfl
          · obtain ⟨_, _, rfl⟩ := removeNode_spec h
            rfl
        rcases hcase with rfl | ⟨p0, hp0, hu, ⟨b, v, -, hre⟩ | ⟨-, rfl⟩⟩
        · obtain ⟨nc, rc, rb, _, _, e⟩ := harvestDiscard_eq (P := P) (takeSearch s j rd a tb) job.tag
          rw [e]
          dsimp only [takeSearch]
          rw [ha']; exact ih
        · obtain ⟨a1, e, gap, a2, hadd, hz, _, hg, he, rfl⟩ := harvestReuse_cases hre
          have h1 := (endPass_step he).1
          rw [updateLog_step.1] at h1
          have h2 : a1.step = a.step := hadd.ctl.2.1
          dsimp only at h1 ⊢
          rw [h1, h2, ha']; exact ih
        · show a.step ≤ _ ∨ a.step = _
          rw [ha']; exact ih
    | close hp =>
      unfold PState.orRaise
      split
      · exact ih
      · rename_i s1 hc
        obtain ⟨hn, hne, a, gap, g, st, ha, _, rfl⟩ := closeJob_cases hc
        show a.step ≤ _ ∨ a.step = _
        rw [ha.ctl.2.1]; exact ih
    | _ => exact ih

/-- **C19** (parallel) At any time the step counter is one of the steps of the cycle, or the restoration
step. -/
theorem C19_parallel_step_range (h : PReach P env pe o c s) :
    s.alg.step ≤ P.numGlobal + 1 ∨ s.alg.step = P.numGlobal + 3 := h.step_range

/-- The step about to be taken when a model is to be built is not one that is switched off. -/
theorem model_enabled {start pause : ℕ} (h : PReach P env pe o (.running start pause) s)
    (hp : s.pc = .model) (hset : P.doInf = true ∨ 0 < P.numGlobal ∨ P.doLocal = true) :
    (s.alg.step = 0 → P.doInf = true) ∧ (s.alg.step = P.numGlobal + 1 → P.doLocal = true) := by
  have hw : ∀ {q : PState O}, (withGap P q).pc ≠ .model := by
    intro q; unfold withGap; split <;> simp
  have hor : ∀ {q : PState O} {pc : PC} {r}, (q.orRaise pc r).pc = .model → pc = .model := by
    intro q pc r h
    unfold PState.orRaise at h
    split at h
    · cases h
    · exact h
  generalize hcc : PCtl.running start pause = c' at h
  cases h with
  | init => cases hcc
  | ret => cases hcc
  | load => cases hcc
  | raises => cases hcc
  | firstRaises => cases hcc
  | call pause h1 h2 =>
    cases h2 with
    | zeroFrequency => cases hp
    | firstFails => cases hp
    | first => exact absurd hp hw
    | resumed => exact absurd hp hw
  | step hr hs =>
    cases hs with
    | noRestart hp' hf hsk _ =>
      have hsk' : ¬ ((_ ∧ P.doInf = false) ∨ (_ ∧ P.doLocal = false)) := of_decide_eq_false hsk
      dsimp only
      push Not at hsk'
      exact ⟨fun h => by simpa using hsk'.1 h, fun h => by simpa using hsk'.2 h⟩
    | restart _ _ _ _ _ hre =>
      unfold PState.orRaise at hp ⊢
      split
      · rename_i e; cases hp
      · obtain ⟨pts, noisy, o, done, rest, prev, u, calls, a, m, M, i, hq⟩ := restartPar_ok hre
        have e : a.step = P.firstStep := hq.install.step
        rw [hq.eq]
        dsimp only [PState.fates]
        rw [e]
        unfold Params.firstStep
        split
        · rename_i hi
          exact ⟨fun _ => hi, fun h => by omega⟩
        · rename_i hi
          refine ⟨fun h => by omega, fun h => ?_⟩
          rcases hset with h1 | h1 | h1
          · exact absurd h1 hi
          · omega
          · exact h1
    | evalsDone => dsimp only at hp; split at hp <;> cases hp
    | collect => have := hor hp; cases this
    | harvest => have := hor hp; cases this
    | restoration => have := hor hp; cases this
    | submit => have := hor hp; cases this
    | close => have := hor hp; cases this
    | _ => cases hp

/-- **C19** (parallel) When a search is started it is a refinement step exactly when none is in progress
and one is due (`refCount` finished ones, one per `ref_frequency` iterations); the position in the cycle
does not change then.  Otherwise it is the search of the current step of the cycle, and the position
advances.  Steps that are switched off are never started. -/
theorem C19_parallel_submission {start pause : ℕ} (h : PReach P env pe o (.running start pause) s)
    (hp : s.pc = .model) (hs : PStep P env pe start pause s s') (hne : s'.searches ≠ s.searches) :
    ∃ tag, s'.searches = s.searches ++ [⟨decide (s.alg.mode = .noisy), tag⟩] ∧
      ((tag = .ref ∧ (s.refBusy = false ∧ s.refCount ≤ (s.alg.itercount : ℚ) / P.refFreq) ∧
          s'.refBusy = true ∧ s'.alg.step = s.alg.step ∧ s'.alg.cyc = s.alg.cyc) ∨
       (¬ (s.refBusy = false ∧ s.refCount ≤ (s.alg.itercount : ℚ) / P.refFreq) ∧
          s'.refBusy = s.refBusy ∧ NextStep P s.alg.step s.alg.cyc s'.alg.step s'.alg.cyc ∧
          (tag = .inf ∧ s.alg.step = 0 ∨ tag = .loc ∧ s.alg.step = P.numGlobal + 1 ∨
           tag = .glob ∧ 1 ≤ s.alg.step ∧ s.alg.step ≤ P.numGlobal))) ∧
      ((P.doInf = true ∨ 0 < P.numGlobal ∨ P.doLocal = true) →
        (tag = .inf → P.doInf = true) ∧ (tag = .loc → P.doLocal = true)) := by
  have hmod := model_enabled h hp
  have hrange := h.step_range
  cases hs with
  | submit r1 r2 _ _ _ hns =>
    have hle : s.alg.step ≤ P.numGlobal + 1 := hrange.resolve_right hns
    unfold PState.orRaise at hne ⊢
    split
    · rename_i e he
      rw [he] at hne
      exact absurd rfl hne
    · rename_i s1 hc
      rw [hc] at hne
      unfold submitNext at hc
      split at hc
      · rename_i hdue
        rcases submitRefine_step hc with ⟨a, rfl, h1, h2⟩ | ⟨a, b, rfl, -⟩
        · exact ⟨.ref, rfl, .inl ⟨rfl, hdue, rfl, h1, h2⟩, fun _ => ⟨(fun h => by cases h), (fun h => by cases h)⟩⟩
        · exact absurd rfl hne
      · rename_i hdue
        cases hc
        refine ⟨_, rfl, .inr ⟨hdue, rfl, advanceStep_next (a := { s.alg with opq := _ }) hle, ?_⟩, ?_⟩
        · unfold Params.infStep Params.localStep
          dsimp only
          by_cases h0 : s.alg.step = 0
          · left; rw [if_pos h0]; exact ⟨rfl, h0⟩
          · rw [if_neg h0]
            by_cases h1 : s.alg.step = P.numGlobal + 1
            · right; left; rw [if_pos h1]; exact ⟨rfl, h1⟩
            · right; right; rw [if_neg h1]; exact ⟨rfl, by omega, by omega⟩
        · intro hset
          have hmod' := hmod hset
          unfold Params.infStep Params.localStep
          dsimp only
          by_cases h0 : s.alg.step = 0
          · rw [if_pos h0]; exact ⟨fun _ => hmod'.1 h0, (fun h => by cases h)⟩
          · rw [if_neg h0]
            by_cases h1 : s.alg.step = P.numGlobal + 1
            · rw [if_pos h1]; exact ⟨(fun h => by cases h), fun _ => hmod'.2 h1⟩
            · rw [if_neg h1]; exact ⟨(fun h => by cases h), (fun h => by cases h)⟩
  | restart hp' => rw [hp] at hp'; cases hp'
  | restoration _ _ _ _ hb hre =>
    exfalso
    unfold PState.orRaise at hne
    split at hne
    · exact hne rfl
    · obtain ⟨pts, noisy, o, done, rest, prev, u, calls, a, m, M, i, hq⟩ := restartPar_ok hre
      rw [hq.eq] at hne
      exact hne rfl
  | _ => simp_all

/-! ## Stalling, refinement frequency -/

/-- The rule of the stalling counter: reset when the best current value has improved on the reference
value, otherwise incremented. -/
def StallRule (P : Params) (a a' : Alg O) : Prop :=
  (Improves P a'.fmin a.fminStall ∧ a'.numStalled = 0 ∧ a'.fminStall = a'.fmin) ∨
  (¬ Improves P a'.fmin a.fminStall ∧ a'.numStalled = a.numStalled + 1 ∧ a'.fminStall = a.fminStall)

theorem StallRule.of_endPass {a b a' : Alg O} (h : endPass P b = .ok a')
    (h1 : b.numStalled = a.numStalled) (h2 : b.fminStall = a.fminStall) : StallRule P a a' := by
  have hf : a'.fmin = b.fmin := by
    obtain ⟨-, -, -, -, -, -, -, -, -, -, -, -, -, -, f, -⟩ := endPass_ctl h
    exact f
  have := endPass_stall h
  rw [h1, h2, ← hf] at this
  exact this

theorem updateLog_stall {a : Alg O} {v : ℚ} {g : EVal} :
    (updateLog a v g).numStalled = a.numStalled ∧ (updateLog a v g).fminStall = a.fminStall := by
  obtain ⟨g', st, e⟩ := updateLog_frame a v g
  rw [e]; exact ⟨rfl, rfl⟩

theorem refinementUpdatePar_stall {a a' : Alg O} {x y : ℚ} {r : ℕ} {b : Bool}
    (h : refinementUpdatePar P env a x y r b = .ok a') :
    a'.numStalled = a.numStalled ∧ a'.fminStall = a.fminStall := by
  unfold refinementUpdatePar at h
  dsimp only at h
  split at h
  · cases h
  · split at h
    · cases h
    · rename_i s1 t1 h1
      split at h
      · cases h
      · rename_i s2 h2
        have e1 : s1.numStalled = a.numStalled ∧ s1.fminStall = a.fminStall := by
          rcases refAccept_cases h1 with ⟨rfl, -⟩ | ⟨rfl, -⟩ <;> exact ⟨rfl, rfl⟩
        have e2 : s2.numStalled = s1.numStalled ∧ s2.fminStall = s1.fminStall := by
          unfold refContinuePar at h2
          split at h2
          · cases h2; exact ⟨rfl, rfl⟩
          · split at h2
            · split at h2
              · cases h2
              · split at h2 <;> (cases h2; exact ⟨rfl, rfl⟩)
            · cases h2
        cases h
        split
        · exact ⟨e2.1.trans e1.1, e2.2.trans e1.2⟩
        · exact ⟨e2.1.trans e1.1, e2.2.trans e1.2⟩

/-- What a collected evaluation does to the stalling counter, to the count of refinement steps and to
the list of submissions. -/
theorem collectJob_more {j : ℕ} (h : collectJob P env pe s j = .ok s') :
    ∃ job, s.evals[j]? = some job ∧
      ((s'.hist = s.hist ++ [(job.id, .skipped)] ∧ s'.refCount = s.refCount ∧ s'.refBusy = s.refBusy ∧
          s'.subs = s.subs ∧ s'.alg = s.alg) ∨
       (s'.hist = s.hist ++ [(job.id, .repeated)] ∧ s'.refCount = s.refCount ∧ s'.refBusy = s.refBusy ∧
          s'.subs = s.subs ++ [(env.toOrig job.pt, false, job.tag)] ∧ StallRule P s.alg s'.alg) ∨
       (s'.hist = s.hist ++ [(job.id, .recorded)] ∧
          (job.tag = .ref → s'.refCount = s.refCount + 1 ∧ s'.refBusy = false) ∧
          (job.tag ≠ .ref → s'.refCount = s.refCount ∧ s'.refBusy = s.refBusy) ∧
          s'.subs = s.subs ∧ StallRule P s.alg s'.alg)) := by
  unfold collectJob at h
  split at h
  · cases h
  · rename_i job hj
    refine ⟨job, hj, ?_⟩
    dsimp only at h
    split at h
    · cases h
    · split at h
      · cases h
        exact .inl ⟨rfl, rfl, rfl, rfl, rfl⟩
      · split at h
        · split at h
          · cases h
          · cases h
            exact .inl ⟨rfl, rfl, rfl, rfl, rfl⟩
        · split at h
          · obtain ⟨a, ha, rfl⟩ := mainUpdates_ok h
            exact .inr (.inl ⟨rfl, rfl, rfl, rfl, .of_endPass ha rfl rfl⟩)
          · split at h
            · cases h
            · rename_i s2 h2
              obtain ⟨a', ha', rfl⟩ := mainUpdates_ok h
              right; right
              unfold collectRecord at h2
              dsimp only at h2
              split at h2
              · cases h2
              · rename_i gap hg
                have hadd := addJob_spec (pe := pe) (env := env) s.alg job
                have e1 := hadd.ctl.2.2.2.2.1
                have e2 := hadd.ctl.2.2.2.2.2.1
                have e3 := updateLog_stall (a := addJob pe env s.alg job) (v := (jobResult pe job).1)
                  (g := gap)
                unfold collectRefine at h2
                split at h2
                · rename_i ht
                  have ht' : job.tag = .ref := ht
                  split at h2
                  · cases h2
                  · split at h2
                    · cases h2
                    · rename_i b hb
                      cases h2
                      have e4 := refinementUpdatePar_stall hb
                      exact ⟨rfl, fun _ => ⟨rfl, rfl⟩, fun h => absurd ht' h, rfl,
                        .of_endPass ha' (e4.1.trans (e3.1.trans e1)) (e4.2.trans (e3.2.trans e2))⟩
                · rename_i ht
                  have ht' : job.tag ≠ .ref := ht
                  cases h2
                  exact ⟨rfl, fun h => absurd h ht', fun _ => ⟨rfl, rfl⟩, rfl,
                    .of_endPass ha' (e3.1.trans e1) (e3.2.trans e2)⟩

/-- What a finished search does to the stalling counter, to the count of refinement steps and to the
list of submissions. -/
theorem harvestJob_more {j : ℕ} {res : SearchRes} (h : harvestJob P env pe s j res = .ok s') :
    ∃ job, s.searches[j]? = some job ∧ s'.searches = s.searches.eraseIdx j ∧ s'.hist = s.hist ∧
      (((job.tag = .ref → s'.refCount = s.refCount + 1 ∧ s'.refBusy = false) ∧
          (job.tag ≠ .ref → s'.refCount = s.refCount ∧ s'.refBusy = s.refBusy) ∧
          s'.subs = s.subs ∧ s'.alg.numStalled = s.alg.numStalled ∧
          s'.alg.fminStall = s.alg.fminStall) ∨
       (s'.refCount = s.refCount ∧ s'.refBusy = s.refBusy ∧ s'.subs = s.subs ∧
          StallRule P s.alg s'.alg ∧ s'.alg.itercount = s.alg.itercount + 1) ∨
       (s'.refCount = s.refCount ∧ s'.refBusy = s.refBusy ∧
          (∃ x noisy tag, (tag = .ref ↔ job.tag = .ref) ∧ s'.subs = s.subs ++ [(x, noisy, tag)]) ∧
          s'.alg.numStalled = s.alg.numStalled ∧ s'.alg.fminStall = s.alg.fminStall)) := by
  obtain ⟨job, rd, a, tb, hj, ha, hcase⟩ := harvestJob_cases h
  have ha' : a.numStalled = s.alg.numStalled ∧ a.fminStall = s.alg.fminStall ∧
      a.itercount = s.alg.itercount := by
    rcases ha with rfl | ⟨_, _, _, _, _, h⟩
    · exact ⟨rfl, rfl, rfl⟩
    · obtain ⟨_, _, rfl⟩ := removeNode_spec h
      exact ⟨rfl, rfl, rfl⟩
  refine ⟨job, hj, ?_⟩
  rcases hcase with rfl | ⟨p0, hp0, hu, ⟨b, v, -, hre⟩ | ⟨-, rfl⟩⟩
  · unfold harvestDiscard
    by_cases ht : job.tag = .ref
    · rw [if_pos ht]
      exact ⟨rfl, rfl, .inl ⟨fun _ => ⟨rfl, rfl⟩, fun h => absurd ht h, rfl, ha'.1, ha'.2.1⟩⟩
    · rw [if_neg ht]
      exact ⟨rfl, rfl, .inl ⟨fun h => absurd h ht, fun _ => ⟨rfl, rfl⟩, rfl, ha'.1, ha'.2.1⟩⟩
  · obtain ⟨a1, e, gap, a2, hadd, hz, _, hg, he, rfl⟩ := harvestReuse_cases hre
    have e3 := updateLog_stall (a := a1) (v := v) (g := gap)
    have e1 : a1.numStalled = a.numStalled := hadd.ctl.2.2.2.2.1
    have e2 : a1.fminStall = a.fminStall := hadd.ctl.2.2.2.2.2.1
    refine ⟨rfl, rfl, .inr (.inl ⟨rfl, rfl, rfl, .of_endPass he (e3.1.trans (e1.trans ha'.1))
      (e3.2.trans (e2.trans ha'.2.1)), ?_⟩)⟩
    have h1 := (endPass_ctl he).1
    obtain ⟨g', st, e'⟩ := updateLog_frame a1 v gap
    rw [e'] at h1
    have h2 : a1.itercount = a.itercount := hadd.ctl.1
    dsimp only at h1 ⊢
    omega
  · refine ⟨rfl, rfl, .inr (.inr ⟨rfl, rfl, ⟨_, _, _, ?_, rfl⟩, ha'.1, ha'.2.1⟩)⟩
    unfold harvestTag
    split
    · rename_i ht
      rw [ht]
      split <;> simp
    · exact Iff.rfl

/-- Number of evaluations submitted by refinement steps. -/
def PState.refSubs (s : PState O) : ℕ := s.subs.countP (fun x => x.2.2 == .ref)

/-- Number of noisy evaluations that were repeated accurately. -/
def PState.repeats (s : PState O) : ℕ := s.hist.countP (fun x => x.2 == .repeated)

/-- Number of refinement searches in progress. -/
def PState.refSearches (s : PState O) : ℕ := s.searches.countP (fun x => x.tag == .ref)

/-- The bookkeeping of refinement steps in a call that began with the counts `k0`, `r0` and the iteration
count `c0` (divided by `ref_frequency`). -/
structure RefFreq (P : Params) (k0 r0 : ℕ) (c0 : ℚ) (s : PState O) : Prop where
  subs : (s.refSubs : ℚ) + s.refSearches ≤
    k0 + ((s.repeats : ℚ) - r0) + (s.refCount - c0) + (if s.refBusy then 1 else 0)
  busy : s.refBusy = true → s.refCount ≤ (s.alg.itercount : ℚ) / P.refFreq
  count : s.refCount ≤ (s.alg.itercount : ℚ) / P.refFreq + 1

end Rbfopt
