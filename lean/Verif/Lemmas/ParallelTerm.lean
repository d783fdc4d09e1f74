import Verif.Props.ParallelEnd

/-! # A potential that decreases with every step of the parallel engine, except when it is waiting -/

namespace Rbfopt

variable {O : Type} {P : Params} {env : Env O} {pe : PEnv O}

/-- How many steps of the cycles remain. -/
def stepsLeft (P : Params) (step : ℕ) (cyc : ℤ) : ℕ :=
  ((P.maxCycles : ℤ) + 2 - cyc).toNat * (P.cycleLength + 2) + (P.cycleLength + 1 - step)

/-- The potential; `N` bounds the number of initial points, `T` the iteration count. -/
def potential (P : Params) (N T : ℕ) (s : PState O) : ℕ :=
  (2 * N + 5) * stepsLeft P s.alg.step s.alg.cyc + (!s.alg.solveUnder).toNat + evalWeight s.evals +
    3 * s.searches.length + 4 * (!s.refBusy).toNat + 5 * (T - s.alg.itercount)

theorem stepsLeft_cyc {step step' : ℕ} {cyc : ℤ} (h : cyc ≤ P.maxCycles) :
    stepsLeft P step' (cyc + 1) + 1 ≤ stepsLeft P step cyc := by
  unfold stepsLeft
  have : ((P.maxCycles : ℤ) + 2 - cyc).toNat = ((P.maxCycles : ℤ) + 2 - (cyc + 1)).toNat + 1 := by
    omega
  rw [this, Nat.add_mul]
  omega

theorem stepsLeft_advance {a : Alg O} (h : a.cyc ≤ P.maxCycles) (N : ℕ) :
    (2 * N + 5) * stepsLeft P (advanceStep P a).step (advanceStep P a).cyc + (2 * N + 5) ≤
      (2 * N + 5) * stepsLeft P a.step a.cyc := by
  have key : stepsLeft P (advanceStep P a).step (advanceStep P a).cyc + 1 ≤
      stepsLeft P a.step a.cyc := by
    unfold advanceStep
    have hL : 2 ≤ P.cycleLength := by simp [Params.cycleLength]
    dsimp only
    split
    · exact stepsLeft_cyc h
    · rename_i hlt
      have hs : a.step + 1 < P.cycleLength := by
        by_contra hge
        apply hlt
        have hm := Nat.mod_lt (a.step + 1) (show 0 < P.cycleLength by omega)
        by_cases he : a.step + 1 = P.cycleLength
        · rw [he, Nat.mod_self]; omega
        · omega
      rw [Nat.mod_eq_of_lt hs]
      unfold stepsLeft
      omega
  have := Nat.mul_le_mul_left (2 * N + 5) key
  rwa [Nat.mul_add, Nat.mul_one] at this

theorem initRefIfNeeded_ctl {a a' : Alg O} (h : initRefIfNeeded env a = .ok a') :
    a'.step = a.step ∧ a'.cyc = a.cyc ∧ a'.solveUnder = a.solveUnder := by
  unfold initRefIfNeeded at h
  split at h
  · split at h
    · split at h
      · cases h
      · cases h; exact ⟨rfl, rfl, rfl⟩
    · cases h
  · cases h; exact ⟨rfl, rfl, rfl⟩

/-- Submitting a search either uses up a step of the cycle or marks refinement as busy. -/
theorem submitNext_potential {s s' : PState O} {r1 r2 : Bool} {N T : ℕ}
    (hc : s.alg.cyc ≤ P.maxCycles) (h : submitNext P env s r1 r2 = .ok s') :
    potential P N T s' + 1 ≤ potential P N T s := by
  unfold submitNext at h
  split at h
  · rename_i hb
    unfold submitRefine at h
    split at h
    · cases h
    · rename_i a ha
      have hd : a.itercount = s.alg.itercount ∧ a.step = s.alg.step ∧ a.cyc = s.alg.cyc ∧
          a.solveUnder = s.alg.solveUnder := by
        split at ha
        · have h2 := initRefIfNeeded_ctl ha
          refine ⟨?_, h2⟩
          unfold initRefIfNeeded at ha
          dsimp only at ha
          split at ha
          · split at ha
            · split at ha
              · cases ha
              · cases ha; rfl
            · cases ha
          · cases ha; rfl
        · cases ha; exact ⟨rfl, rfl, rfl, rfl⟩
      obtain ⟨d1, d2, d3, d4⟩ := hd
      dsimp only at h
      split at h
      · cases h
        have h1 := stepsLeft_advance (P := P)
          (a := { a with numCons := s.alg.numCons, opq := (env.linFails { a with numCons := s.alg.numCons }).2 })
          (by show a.cyc ≤ _; rw [d3]; exact hc) N
        simp only [advanceStep, d2, d3] at h1
        unfold potential
        simp only [advanceStep, d1, d2, d3, d4]
        omega
      · cases h
        unfold potential
        simp only [PState.submitSearch, List.length_append, List.length_singleton, hb.1, d1, d2, d3, d4]
        simp only [Bool.not_true, Bool.toNat_false, Bool.not_false, Bool.toNat_true]
        omega
  · cases h
    have h1 := stepsLeft_advance (P := P) hc N
    unfold potential
    simp only [PState.submitSearch, List.length_append, List.length_singleton]
    have e1 : (advanceStep P s.alg).solveUnder = s.alg.solveUnder := rfl
    have e2 : (advanceStep P s.alg).itercount = s.alg.itercount := rfl
    rw [e1, e2]
    omega

theorem collect_potential {s s' : PState O} {j N T : ℕ} (hT : s.alg.itercount < T)
    (hc : collectJob P env pe s j = .ok s') :
    potential P N T s' + 1 ≤ potential P N T s ∧ s'.alg.cyc = s.alg.cyc := by
  obtain ⟨job, d, hj, hd, hcase⟩ := collectJob_cases hc
  have hw := evalWeight_perm (perm_take hj)
  rw [evalWeight_cons] at hw
  rcases hcase with ⟨_, tb, rfl⟩ | ⟨_, hn, _, a, ha, rfl⟩ |
    ⟨_, gap, a, a', rc, rb, hg, hda, e1, e2, e3, ha, hrb, hrb', rfl⟩
  · unfold potential
    simp only [PState.fate, takeJob, PState.popTemp]
    exact ⟨by omega, trivial⟩
  · obtain ⟨c0, c1, c2, -, -, -, -, -, -, -, -, -, -, -, -, -, -, -, c3, -⟩ := endPass_ctl ha
    simp only at c0 c1 c2 c3
    rw [hn] at hw
    unfold potential
    simp only [collectRepeat, PState.submitEval, PState.pushTemp, PState.fate, takeJob,
      PState.popTemp, evalWeight_snoc, c0, c1, c2, c3]
    simp only [Bool.toNat_true, Bool.toNat_false] at hw ⊢
    exact ⟨by omega, trivial⟩
  · obtain ⟨c0, c1, c2, -, -, -, -, -, -, -, -, -, -, -, -, -, -, -, c3, -⟩ := endPass_ctl ha
    unfold potential
    simp only [PState.fate, takeJob, PState.popTemp, c0, c1, c2, c3, e1, e2, e3.1, e3.2]
    have hb : (!rb).toNat ≤ (!s.refBusy).toNat + 1 := by cases rb <;> cases s.refBusy <;> simp
    exact ⟨by omega, trivial⟩

theorem harvest_potential {s s' : PState O} {j N T : ℕ} {res : SearchRes} (hT : s.alg.itercount < T)
    (hc : harvestJob P env pe s j res = .ok s') :
    potential P N T s' + 1 ≤ potential P N T s ∧ s'.alg.cyc = s.alg.cyc := by
  obtain ⟨job, rd, a, tb, hj, ha, hcase⟩ := harvestJob_cases hc
  have hlen := takeSearch_len hj
  have ha' : a.itercount = s.alg.itercount ∧ a.step = s.alg.step ∧ a.cyc = s.alg.cyc ∧
      a.solveUnder = s.alg.solveUnder := by
    rcases ha with rfl | ⟨_, _, _, _, _, hr⟩
    · exact ⟨rfl, rfl, rfl, rfl⟩
    · obtain ⟨_, _, rfl⟩ := removeNode_spec hr
      exact ⟨rfl, rfl, rfl, rfl⟩
  obtain ⟨d1, d2, d3, d4⟩ := ha'
  rcases hcase with rfl | ⟨p0, hp0, hu, ⟨b, v, hr, hre⟩ | ⟨hr, rfl⟩⟩
  · obtain ⟨nc, rc, rb, _, _, e⟩ := harvestDiscard_eq (P := P) (takeSearch s j rd a tb) job.tag
    rw [e]
    have hb : (!rb).toNat ≤ (!s.refBusy).toNat + 1 := by cases rb <;> cases s.refBusy <;> simp
    unfold potential
    simp only [takeSearch, d1, d2, d3, d4]
    exact ⟨by omega, trivial⟩
  · obtain ⟨a1, e, gap, a2, hadd, hz, _, hg, he, rfl⟩ := harvestReuse_cases hre
    obtain ⟨c0, c1, c2, -, -, -, -, -, -, -, -, -, -, -, -, -, -, -, c3, -⟩ := endPass_ctl he
    obtain ⟨g, st, hl⟩ := updateLog_frame a1 v gap
    rw [hl] at c0 c1 c2 c3
    have f1 : a1.itercount = a.itercount := hadd.ctl.1
    have f2 : a1.step = a.step := hadd.ctl.2.1
    have f3 : a1.cyc = a.cyc := hadd.ctl.2.2.1
    have f4 : a1.solveUnder = a.solveUnder := hz.2
    simp only at c0 c1 c2 c3
    unfold potential
    simp only [takeSearch, c0, c1, c2, c3, f1, f2, f3, f4, d1, d2, d3, d4]
    exact ⟨by omega, trivial⟩
  · have hb : job.noisy.toNat ≤ 1 := Bool.toNat_le _
    unfold potential
    simp only [harvestSubmit, PState.submitEval, PState.pushTemp, takeSearch, evalWeight_snoc, d1,
      d2, d3, d4]
    exact ⟨by omega, trivial⟩

theorem restart_potential {s s' : PState O} {N T : ℕ}
    (hN : ∀ a pts o, env.initNodes a = .ok (pts, o) → pts.length ≤ N)
    (hc : s.alg.cyc ≤ P.maxCycles) (h : RestartPar P env pe s (.ok s')) (step0 : ℕ) (su0 : Bool) :
    potential P N T s' + 1 ≤
      potential P N T { s with alg := { s.alg with step := step0, solveUnder := su0 } } ∧
    s'.alg.cyc = s.alg.cyc + 1 := by
  obtain ⟨e1, -, e3, e4, -⟩ := restart_counts hN h
  obtain ⟨pts, noisy, o, done, rest, prev, u, calls, a, m, M, i, hp⟩ := restartPar_ok h
  have h1 : s'.alg.cyc = s.alg.cyc + 1 := by rw [hp.eq]; exact hp.install.cyc
  have h2 : s'.alg.solveUnder = false := by rw [hp.eq]; exact hp.install.solveUnder
  have h3 : s'.refBusy = s.refBusy := by rw [hp.eq]; rfl
  have h4 := stepsLeft_cyc (P := P) (step := step0) (step' := s'.alg.step) hc
  have h5 := Nat.mul_le_mul_left (2 * N + 5) h4
  rw [Nat.mul_add] at h5
  have h6 := evalWeight_le s'.evals
  refine ⟨?_, h1⟩
  unfold potential
  rw [h1, h2, h3, e3, e4]
  simp only [Bool.not_false, Bool.toNat_true]
  omega

/-- Bounds on the cycle counter during a call. -/
def CycInv (P : Params) (s : PState O) : Prop :=
  match s.pc with
  | .evals _ | .searches | .submit => s.alg.cyc < P.maxCycles
  | .model => s.alg.cyc ≤ P.maxCycles
  | _ => True

theorem parCond_cyc {start pause : ℕ} {s : PState O} (h : parCond P env start pause s = true) :
    s.alg.cyc < P.maxCycles := by
  unfold parCond loopCond at h
  simp only [decide_eq_true_eq] at h
  exact h.2.2.2.2.1

theorem CycInv.step {start pause N : ℕ} {s s' : PState O}
    (hN : ∀ a pts o, env.initNodes a = .ok (pts, o) → pts.length ≤ N)
    (h : CycInv P s) (hs : PStep P env pe start pause s s') : CycInv P s' := by
  have hcase : ∀ (r : Except PyErr (PState O)) (pc : PC),
      (∀ s1, r = .ok s1 → CycInv P ({ s1 with pc := pc } : PState O)) →
      CycInv P (s.orRaise pc r) := by
    intro r pc hh
    unfold PState.orRaise
    split
    · trivial
    · exact hh _ rfl
  cases hs with
  | enter hp hc => exact parCond_cyc hc
  | @collect b j hp hj =>
    refine hcase _ _ (fun s1 hs1 => ?_)
    have := (collect_potential (N := 0) (T := s.alg.itercount + 1) (by omega) hs1).2
    simp only [CycInv, hp] at h ⊢
    omega
  | @evalsDone b hp =>
    simp only [CycInv, hp] at h
    by_cases hlt : b < s.alg.itercount
    · simp only [CycInv, if_pos hlt]
    · simp only [CycInv, if_neg hlt]; exact h
  | harvest j res hp hj hi _ =>
    refine hcase _ _ (fun s1 hs1 => ?_)
    have := (harvest_potential (N := 0) (T := s.alg.itercount + 1) (by omega) hs1).2
    simp only [CycInv, hp] at h ⊢
    omega
  | searchesDone hp => simp only [CycInv, hp] at h ⊢; exact h
  | @restart r hp _ _ _ hbz hr' =>
    refine hcase _ _ (fun s1 hs1 => ?_)
    subst hs1
    simp only [CycInv, hp] at h ⊢
    have := (restart_potential (T := 0) hN h.le hr' 0 false).2
    omega
  | noRestart hp hf _ _ => simp only [CycInv, hp] at h ⊢; omega
  | restoration hp _ _ _ hbz hr' => exact hcase _ _ (fun s1 hs1 => trivial)
  | submit _ _ hp _ _ _ => exact hcase _ _ (fun s1 hs1 => trivial)
  | close hp => exact hcase _ _ (fun s1 hs1 => trivial)
  | _ => trivial

theorem CallReach.cyc {o : O} {s0 s : PState O} {pause N : ℕ}
    (hN : ∀ a pts o, env.initNodes a = .ok (pts, o) → pts.length ≤ N)
    (h : CallReach P env pe o s0 pause s) : CycInv P s := by
  induction h with
  | start h1 h2 =>
    rcases start_counts hN h2 with ⟨e, he⟩ | ⟨h3, -⟩
    · unfold CycInv; rw [he]; trivial
    · unfold CycInv; rw [h3]; trivial
  | step h1 hs ih => exact ih.step hN hs

/-- A step in which the engine only looks whether results are available. -/
def Polls (s s' : PState O) : Prop :=
  s'.evals = s.evals ∧ s'.searches = s.searches ∧ s'.alg.itercount = s.alg.itercount ∧
  (s.pc = .top ∧ s'.pc = .evals s.alg.itercount ∨
   (∃ b, s.pc = .evals b ∧ s'.pc = if b < s.alg.itercount then .top else .searches) ∨
   s.pc = .searches ∧ s'.pc = .submit ∨
   s.pc = .submit ∧ s'.pc = .top ∨
   s.pc = .submit ∧ s'.pc = .model ∨
   s.pc = .model ∧ s'.pc = .top)

/-- Every step of the main loop decreases the potential, polls, or leaves the main loop. -/
theorem PStep.potential {start pause N T : ℕ} {s s' : PState O}
    (hN : ∀ a pts o, env.initNodes a = .ok (pts, o) → pts.length ≤ N)
    (hc : CycInv P s) (hT : s.pc.Active → s.alg.itercount < T)
    (hs : PStep P env pe start pause s s') :
    ¬ s'.pc.Active ∨ potential P N T s' + 1 ≤ potential P N T s ∨
    (Polls s s' ∧ potential P N T s' ≤ potential P N T s ∧
      (s'.pc = .top → s.pc = .evals s.alg.itercount ∨ (∃ b, s.pc = .evals b) ∨ parFull pe s = true ∨
        parBusy s = true)) := by
  have hcase : ∀ (r : Except PyErr (PState O)) (pc : PC),
      (∀ s1, r = .ok s1 → Rbfopt.potential P N T ({ s1 with pc := pc } : PState O) + 1 ≤
        Rbfopt.potential P N T s) →
      ¬ (s.orRaise pc r).pc.Active ∨
        Rbfopt.potential P N T (s.orRaise pc r) + 1 ≤ Rbfopt.potential P N T s ∨
        (Polls s (s.orRaise pc r) ∧
          Rbfopt.potential P N T (s.orRaise pc r) ≤ Rbfopt.potential P N T s ∧
        ((s.orRaise pc r).pc = .top → s.pc = .evals s.alg.itercount ∨ (∃ b, s.pc = .evals b) ∨
          parFull pe s = true ∨ parBusy s = true)) := by
    intro r pc hh
    unfold PState.orRaise
    split
    · left; simp [PC.Active]
    · right; left; exact hh _ rfl
  cases hs with
  | enter hp hcd =>
    exact Or.inr (Or.inr ⟨⟨rfl, rfl, rfl, Or.inl ⟨hp, rfl⟩⟩, le_refl _, by simp⟩)
  | leave hp _ => left; simp [PC.Active]
  | @collect b j hp hj =>
    exact hcase _ _ (fun s1 hs1 => (collect_potential (hT (by simp [hp, PC.Active])) hs1).1)
  | @evalsDone b hp =>
    exact Or.inr (Or.inr ⟨⟨rfl, rfl, rfl, Or.inr (Or.inl ⟨b, hp, rfl⟩)⟩, le_refl _,
      fun _ => Or.inr (Or.inl ⟨b, hp⟩)⟩)
  | harvest j res hp hj hi _ =>
    exact hcase _ _ (fun s1 hs1 => (harvest_potential (hT (by simp [hp, PC.Active])) hs1).1)
  | searchesDone hp =>
    exact Or.inr (Or.inr ⟨⟨rfl, rfl, rfl, Or.inr (Or.inr (Or.inl ⟨hp, rfl⟩))⟩, le_refl _, by simp⟩)
  | full hp hf =>
    exact Or.inr (Or.inr ⟨⟨rfl, rfl, rfl, Or.inr (Or.inr (Or.inr (Or.inl ⟨hp, rfl⟩)))⟩, le_refl _,
      fun _ => Or.inr (Or.inr (Or.inl hf))⟩)
  | skip hp _ _ =>
    right; left
    simp only [CycInv, hp] at hc
    have h3 := stepsLeft_advance (P := P) hc.le N
    unfold Rbfopt.potential
    have e1 : (advanceStep P s.alg).solveUnder = s.alg.solveUnder := rfl
    have e2 : (advanceStep P s.alg).itercount = s.alg.itercount := rfl
    dsimp only
    rw [e1, e2]
    omega
  | waitRestart hp _ _ _ hb =>
    exact Or.inr (Or.inr ⟨⟨rfl, rfl, rfl, Or.inr (Or.inr (Or.inr (Or.inl ⟨hp, rfl⟩)))⟩, le_refl _,
      fun _ => Or.inr (Or.inr (Or.inr hb))⟩)
  | @restart r hp _ _ _ hbz hr' =>
    refine hcase _ _ (fun s1 hs1 => ?_)
    subst hs1
    simp only [CycInv, hp] at hc
    exact (restart_potential hN hc.le hr' s.alg.step s.alg.solveUnder).1
  | noRestart hp hf _ _ =>
    exact Or.inr (Or.inr ⟨⟨rfl, rfl, rfl, Or.inr (Or.inr (Or.inr (Or.inr (Or.inl ⟨hp, rfl⟩))))⟩,
      le_refl _, by simp⟩)
  | prepFails hp _ => left; simp [PC.Active]
  | underdetermined hp _ _ _ hu =>
    right; left
    unfold Rbfopt.potential
    simp only [hu]
    simp only [Bool.not_true, Bool.toNat_false, Bool.not_false, Bool.toNat_true]
    omega
  | noList hp _ _ _ _ => left; simp [PC.Active]
  | @waitRestoration o1 o2 f hp _ _ _ hb =>
    refine Or.inr (Or.inr ⟨⟨rfl, rfl, rfl, Or.inr (Or.inr (Or.inr (Or.inr (Or.inr ⟨hp, rfl⟩))))⟩, ?_,
      fun _ => Or.inr (Or.inr (Or.inr hb))⟩)
    have h1 : stepsLeft P P.restorationStep s.alg.cyc ≤ stepsLeft P s.alg.step s.alg.cyc := by
      unfold stepsLeft
      simp only [Params.restorationStep, Params.cycleLength]
      omega
    have h2 := Nat.mul_le_mul_left (2 * N + 5) h1
    unfold Rbfopt.potential
    dsimp only
    omega
  | @restoration o1 o2 f r hp _ _ _ hbz hr' =>
    refine hcase _ _ (fun s1 hs1 => ?_)
    subst hs1
    simp only [CycInv, hp] at hc
    exact (restart_potential (T := T) (s := { s with alg := { s.alg with
      opq := o2, step := P.restorationStep, solveUnder := false } }) hN hc hr'
      s.alg.step s.alg.solveUnder).1
  | @submit o1 o2 r1 r2 hp _ _ _ =>
    refine hcase _ _ (fun s1 hs1 => ?_)
    simp only [CycInv, hp] at hc
    have := submitNext_potential (P := P) (N := N) (T := T)
      (s := { s with alg := { s.alg with opq := o2 } }) hc hs1
    exact this
  | close hp =>
    left
    unfold PState.orRaise
    split <;> simp [PC.Active]
  | finish hp => left; simp [PC.Active]

end Rbfopt
