import Verif.Lemmas.Interrupt
import Verif.Lemmas.TwoPhase
import Verif.Lemmas.Flags
import Verif.Lemmas.ControlInv
import Verif.Props.Records

/-!
# C87: exceptions of the black box

`IReach P env o c s lost`: the object can be in state `s` after any history in which calls of
`optimize()` returned, were abandoned and reloaded, or ended with an exception raised by `evaluate()`,
by `evaluate_noisy()` or by the sampling, and were followed by further calls.  `lost` lists the calls of
the black box whose results were dropped by such an exception.
-/

namespace Rbfopt

variable {O : Type} {P : Params} {env : Env O} {o : O} {c : Ctl} {s t : Alg O} {lost : List Call}

/-- Calls and counters of an elementary change. -/
theorem Micro.calls (w : WF env s) (hm : Micro P env s t) :
    ∃ calls, t.log = s.log ++ calls ∧ t.evalcount = s.evalcount + countAcc calls ∧
      t.noisyEvalcount = s.noisyEvalcount + countNoisy calls := by
  cases hm with
  | ctrl e =>
    have e1 : t.evalcount = s.evalcount := congrArg Data.evalcount e
    have e2 : t.noisyEvalcount = s.noisyEvalcount := congrArg Data.noisyEvalcount e
    have e3 : t.log = s.log := congrArg Data.log e
    exact ⟨[], by simp [e1, e2, e3]⟩
  | log obj gap =>
    obtain ⟨g, st, e⟩ := updateLog_frame s obj gap
    rw [e]; exact ⟨[], by simp⟩
  | restart hr =>
    obtain ⟨tb, calls, m, M, i, ho⟩ := restart_spec hr
    exact ⟨calls, ho.log, ho.ev, ho.nev⟩
  | removeLocal i _ _ hr => obtain ⟨_, _, rfl⟩ := removeNode_spec hr; exact ⟨[], by simp⟩
  | erase is _ _ => exact ⟨[], by simp⟩
  | removeRest i p t' _ hr => obtain ⟨_, _, rfl⟩ := removeNode_spec hr; exact ⟨[], by simp⟩
  | add loc p0 d r hd hlt hev hadd =>
    obtain ⟨calls, ho⟩ := evaluateNext_spec hev w.allA
    obtain ⟨e, ha, _, _⟩ := addResult_spec hadd
    obtain ⟨r1, r2, r3, -⟩ := ha.rest
    obtain ⟨-, -, -, -, -, -, -, -, -, q1, q2, q3, -⟩ := ho.data_eqs
    exact ⟨calls, by rw [r1, q1], by rw [r2, q2], by rw [r3, q3]⟩
  | phase _ _ => exact ⟨[], by simp⟩

/-- Calls and records of an elementary change (single phase). -/
theorem Micro.grows (hP : P.twoPhase = false) (hd : ∀ p, env.dist p p ≤ P.minDist) (w : WF env s)
    (hs : SingleOK s) (hm : Micro P env s t) :
    ∃ calls tb, t.log = s.log ++ calls ∧ t.all = s.all.append tb ∧ Covered env calls tb := by
  cases hm with
  | ctrl e =>
    have e1 : t.all = s.all := congrArg Data.all e
    have e3 : t.log = s.log := congrArg Data.log e
    exact ⟨[], {}, by simp [e3], by simp [e1, Table.append], Covered.nil⟩
  | log obj gap =>
    obtain ⟨g, st, e⟩ := updateLog_frame s obj gap
    rw [e]; exact ⟨[], {}, by simp, by simp [Table.append], Covered.nil⟩
  | restart hr =>
    obtain ⟨pts, c1, c2, tb, ho⟩ := restart_calls hr
    exact ⟨c1 ++ c2, tb, ho.log, ho.all, ho.cover⟩
  | removeLocal i h1 _ hr => simp [hP] at h1
  | erase is h1 _ => simp [hP] at h1
  | removeRest i p t' hl hr => rw [restorationLoop_none hd] at hl; cases hl
  | add loc p0 d r hd' hlt hev hadd =>
    obtain ⟨calls, ho⟩ := evaluateNext_spec hev w.allA
    obtain ⟨e, ha, _, _⟩ := addResult_spec hadd
    obtain ⟨r1, r2, r3, -⟩ := ha.rest
    obtain ⟨q0, q0', -, -, -, -, -, -, -, q1, q2, q3, -⟩ := ho.data_eqs
    refine ⟨calls, _, by rw [r1, q1], by rw [ha.all, q0'], ?_⟩
    have hlen : calls.length ≤ 1 := by
      rw [length_eq_counts, (ho.acc hs.1).1]
      have := ho.le_acc
      omega
    intro c hc
    refine ⟨0, _, rfl, ?_⟩
    rcases ho.src with ⟨_, hin⟩ | ⟨hn, _⟩ | ⟨rfl, _⟩
    · match calls, hlen with
      | [c'], _ =>
        simp only [List.mem_singleton] at hin hc
        rw [hc, ← hin]
        exact ⟨rfl, rfl⟩
      | [], _ => cases hc
    · rw [(ho.acc hs.1).2] at hn; cases hn
    · cases hc
  | phase h1 _ => simp [hP] at h1

/-- Interrupted histories include the undisturbed ones, with nothing lost. -/
theorem Reach.toIReach (h : Reach P env o c s) : IReach P env o c s [] := by
  induction h with
  | init => exact .init
  | call pause _ hs ih => exact .call pause ih hs
  | pass _ hc hp ih => exact .pass ih hc hp
  | ret _ hc ih => exact .ret ih hc
  | load _ ih => exact .load ih

theorem loop_ireach {fuel start pause : ℕ} {s s' : Alg O} {loc loc' : Loc}
    (hr : IReach P env o (.running start pause loc) s lost)
    (h : loop P env start pause fuel s loc = .done s' loc') :
    IReach P env o (.running start pause loc') s' lost ∧ loopCond P env start pause s' loc' = false := by
  induction fuel generalizing s loc with
  | zero =>
    simp only [loop] at h
    split at h
    · cases h
    · rename_i hc
      cases h
      exact ⟨hr, by simpa using hc⟩
  | succ n ih =>
    simp only [loop] at h
    split at h
    · rename_i hc
      split at h
      · cases h
      · rename_i s1 loc1 hp
        exact ih (hr.pass hc hp) h
    · rename_i hc
      cases h
      exact ⟨hr, by simpa using hc⟩

/-- A call of `optimize()` that returns after interrupted calls. -/
theorem optimize_ireach {fuel pause : ℕ} {r : OptResult O} (hr : IReach P env o .idle s lost)
    (h : optimize P env fuel pause s = .ret r) : IReach P env o .idle r.final lost := by
  obtain ⟨s1, loc, s2, loc2, hs, hl, hf, -⟩ := optimize_cases h
  obtain ⟨h1, h2⟩ := loop_ireach (hr.call pause hs) hl
  rw [hf]
  exact h1.ret h2

/-- Invariants that survive a loss and do not mention `num_nodes_at_restart`. -/
theorem IReach.inv_at {I : List Call → Alg O → Prop} (hd : ∀ p, env.dist p p ≤ P.minDist)
    (hi : IReach P env o c s lost) (h0 : I [] (Alg.init P o))
    (hm : ∀ l s t, WF env s → I l s → Micro P env s t → I l t)
    (hl : ∀ l (s : Alg O) new x o a b, WF env s → I l s →
      a ≤ countAcc new → b ≤ countNoisy new → (s.mode = .accurate → countNoisy new = 0) →
      (∀ c ∈ new, ∃ p, Asked P env p ∧ c.point = env.decode p) →
      I (l ++ new) { s with
        numNoisyRestarts := x, opq := o, log := s.log ++ new, evalcount := s.evalcount + a
        noisyEvalcount := s.noisyEvalcount + b }) :
    ∃ m, WF env (s.at m) ∧ I lost (s.at m) ∧ (m = s.nAtRestart ∨ PendingAt P c s) := by
  refine IReach.inv (I := I) hd h0 hm ?_ hi
  rintro l s t new w hs ⟨⟨x, o, a, b, e, h1, h2, h3⟩, h4, h5⟩
  rw [e]
  exact hl l s new x o a b w hs h1 h2 h5 h4

/-! ## What survives -/

/-- **C87** The tables of current nodes and of all records stay aligned. -/
theorem C87_tables_aligned (hd : ∀ p, env.dist p p = 0) (hm : 0 ≤ P.minDist)
    (h : IReach P env o c s lost) : s.cur.Aligned ∧ s.all.Aligned := by
  obtain ⟨m, w, -⟩ := IReach.inv_at (I := fun _ _ => True) (fun p => by rw [hd p]; exact hm) h trivial
    (fun _ _ _ _ _ _ => trivial) (fun _ _ _ _ _ _ _ _ _ _ _ _ _ => trivial)
  exact ⟨w.curA, w.allA⟩

/-- **C87** After every completed iteration (and after the initialization done by the first call) the
current nodes are exactly the records made since the last restart, whatever was interrupted before
(error intervals: as in C03). -/
theorem C87_nodes_after_pass (hd : ∀ p, env.dist p p = 0) (hm : 0 ≤ P.minDist) {s' : Alg O}
    {start pause : ℕ} {loc loc' : Loc} (h : IReach P env o (.running start pause loc) s lost)
    (hp : pass P env s loc = .ok (s', loc')) :
    s'.nAtRestart ≤ s'.all.pos.length ∧ s'.cur.val = s'.all.val.drop s'.nAtRestart ∧
    s'.cur.noisy = s'.all.noisy.drop s'.nAtRestart ∧ 
    List.Forall₂ (fun e r => e = r ∨ e = (0, 0)) s'.cur.err (s'.all.err.drop s'.nAtRestart) ∧
    (P.twoPhase = false ∨ s'.mode = .noisy → s'.cur.err = s'.all.err.drop s'.nAtRestart) ∧
    List.Forall₂ (fun q p => q = env.toInternal p ∨ p = env.toOrig q) s'.cur.pos
      (s'.all.pos.drop s'.nAtRestart) := by
  have hd' : ∀ p, env.dist p p ≤ P.minDist := fun p => by rw [hd p]; exact hm
  obtain ⟨m, w, he, hpend⟩ := IReach.inv_at (I := fun _ t => ErrOK P t) hd' h
    (fun _ => by simp [ErrEq, Alg.init])
    (fun _ _ _ w hs hm => hs.micro w hm) (fun _ _ _ _ _ _ _ _ hs _ _ _ _ => hs)
  have hmi : Micros P env (s.at m) s' := by
    rcases hpend with rfl | hpend
    · exact pass_micros hp
    · exact Pending.pass hd' m hpend hp
  obtain ⟨w', he'⟩ : WF env s' ∧ ErrOK P s' :=
    Micros.inv (I := fun t => WF env t ∧ ErrOK P t)
      (fun _ _ hs hm => ⟨hs.1.micro hm, hs.2.micro hs.1 hm⟩) ⟨w, he⟩ hmi
  exact ⟨w'.le, w'.val, w'.noisy, w'.err, he', w'.pos⟩

/-- **C87** An interrupted restart is made up for: if a restart is interrupted in the main loop after the
first iteration, the next completed iteration restarts first, so that the nodes it leaves consist of a
new sample (and at most one added point); no old node is left. -/
theorem C87_interrupted_restart_is_repeated {s' : Alg O} {loc loc' : Loc} {new : List Call}
    (hit : s.itercount ≠ 0) (hn : NotSkipped P s) (hs : shouldRestart P s = true)
    (hc : RestartCut P env { s with passes := s.passes + 1 } t new)
    (hp : pass P env t loc = .ok (s', loc')) :
    ∃ u, restart P env { t with passes := t.passes + 1 } = .ok u ∧ Micros P env u s' := by
  have hl := hc.lossy
  have hpend : Pending P t := (hl.pending (show Pending P _ from ⟨hn, Or.inl hs⟩)).resolve_left (by
    obtain ⟨⟨x, o, a, b, e, -⟩, -⟩ := hl
    have := congrArg Alg.itercount e
    exact fun h => hit (this.symm.trans h))
  have hst : shouldRestart P t = true := by
    obtain ⟨⟨x, o, a, b, e, h1, h2, h3⟩, -⟩ := hl
    have ha : a = 0 := h3 hit
    subst ha
    have := congrArg (shouldRestart P) e
    exact this.trans hs
  obtain ⟨hn', -⟩ := hpend
  unfold Rbfopt.pass at hp
  dsimp only at hp
  rw [if_neg (by exact hn')] at hp
  have hr : restartIfNeeded P env { t with passes := t.passes + 1 } =
      restart P env { t with passes := t.passes + 1 } := if_pos hst
  rw [hr] at hp
  split at hp
  · cases hp
  · rename_i u hu
    refine ⟨u, hu, ?_⟩
    have m0 : Micros P env u u := .refl _
    split at hp
    · cases hp
    · rename_i o' ho
      have m2 : Micros P env u { u with opq := o' } := .ctrl rfl
      split at hp
      · cases hp
      · rename_i s2 h2
        cases hp
        exact .tail m2 (.ctrl (buildModel_data h2))
      · rename_i s2 h2
        have m3 := m2.tail (.ctrl (buildModel_data h2))
        split at hp
        · cases hp
        · rename_i s3 h3
          cases hp
          exact m3.trans (dispatch_micros h3)
        · rename_i s3 next ref h3
          have m4 := m3.trans (dispatch_micros h3)
          split at hp
          · cases hp
          · rename_i s4 loc4 h4
            have m5 := m4.trans (processPoint_micros h4)
            split at hp
            · cases hp
            · rename_i s5 h5
              cases hp
              exact m5.trans (endPass_micros h5)

/-- **C87** (black boxes without `evaluate_noisy`) The tracked best value stays the smallest recorded
value. -/
theorem C87_tracked_best (hP : P.twoPhase = false) (hd : ∀ p, env.dist p p = 0) (hm : 0 ≤ P.minDist)
    (h : IReach P env o c s lost) (hne : s.all.pos ≠ []) :
    ∃ f b M : ℚ, s.fmin = (f : EVal) ∧ s.fbest = (b : EVal) ∧ s.fmax = (M : EVal) ∧
      IsLeastAt s.cur.val s.fminIdx f ∧ IsLeastAt s.all.val s.fbestIdx b ∧
      IsGreatestOf s.cur.val M := by
  have hd' : ∀ p, env.dist p p ≤ P.minDist := fun p => by rw [hd p]; exact hm
  obtain ⟨m, -, hb, -⟩ := IReach.inv_at (I := fun _ s => BestOK s) hd' h
    (Or.inl (by simp [Alg.init])) (fun _ _ _ w hs hmi => hs.micro hP hd' w hmi)
    (fun _ _ _ _ _ _ _ _ hs _ _ _ _ => hs)
  rcases hb with h1 | h1
  · have h2 : s.all = {} := h1.1
    rw [h2] at hne; simp at hne
  · exact h1

/-- **C87** (any black box) The tracked best value is never above a recorded value. -/
theorem C87_tracked_bounds (hd : ∀ p, env.dist p p = 0) (hm : 0 ≤ P.minDist)
    (h : IReach P env o c s lost) :
    (∀ v ∈ s.all.val, s.fbest ≤ (v : EVal)) ∧
    ∀ v ∈ s.cur.val, s.fmin ≤ (v : EVal) ∧ (v : EVal) ≤ s.fmax := by
  obtain ⟨m, -, hb, -⟩ := IReach.inv_at (I := fun _ s => BoundOK s)
    (fun p => by rw [hd p]; exact hm) h (by simp [BoundOK, Alg.init])
    (fun _ _ _ w hs hmi => hs.micro w hmi) (fun _ _ _ _ _ _ _ _ hs _ _ _ _ => hs)
  exact hb

/-- **C87** The counters never exceed the number of calls that returned, and differ from it by at most
the dropped ones. -/
theorem C87_counters (hd : ∀ p, env.dist p p = 0) (hm : 0 ≤ P.minDist)
    (h : IReach P env o c s lost) :
    s.evalcount ≤ countAcc s.log ∧ countAcc s.log ≤ s.evalcount + countAcc lost ∧
    s.noisyEvalcount ≤ countNoisy s.log ∧ countNoisy s.log ≤ s.noisyEvalcount + countNoisy lost := by
  refine Exists.elim (IReach.inv_at (I := fun l s => s.evalcount ≤ countAcc s.log ∧
      countAcc s.log ≤ s.evalcount + countAcc l ∧ s.noisyEvalcount ≤ countNoisy s.log ∧
      countNoisy s.log ≤ s.noisyEvalcount + countNoisy l)
    (fun p => by rw [hd p]; exact hm) h (by simp [Alg.init]) ?_ ?_) (fun _ hb => hb.2.1)
  · rintro l s t w ⟨h1, h2, h3, h4⟩ hmi
    obtain ⟨calls, e1, e2, e3⟩ := hmi.calls w
    rw [e1, e2, e3, countAcc_append, countNoisy_append]
    omega
  · rintro l s new x o a b w ⟨h1, h2, h3, h4⟩ ha hb - -
    simp only [countAcc_append, countNoisy_append]
    omega

/-- **C87** (black boxes without `evaluate_noisy`) Every call that returned is recorded, except those
whose results were dropped by an exception. -/
theorem C87_every_result_recorded_or_lost (hP : P.twoPhase = false) (hd : ∀ p, env.dist p p = 0)
    (hm : 0 ≤ P.minDist) (h : IReach P env o c s lost) :
    ∀ c ∈ s.log, c ∈ lost ∨ ∃ (i : ℕ) (p : Pt), s.all.pos[i]? = some p ∧
      s.all.val[i]? = some c.value ∧ env.decode p = c.point := by
  have hd' : ∀ p, env.dist p p ≤ P.minDist := fun p => by rw [hd p]; exact hm
  refine Exists.elim (IReach.inv_at (I := fun l s => SingleOK s ∧ ∀ c ∈ s.log, c ∈ l ∨
      ∃ (i : ℕ) (p : Pt), s.all.pos[i]? = some p ∧ s.all.val[i]? = some c.value ∧
        env.decode p = c.point) hd' h
    ⟨by simp [SingleOK, Alg.init, hP, Table.All], by simp [Alg.init]⟩ ?_ ?_) (fun _ hb => hb.2.1.2)
  · rintro l s t w ⟨hs, hcov⟩ hmi
    refine ⟨hs.micro hP w hmi, ?_⟩
    obtain ⟨calls, tb, e1, e2, hct⟩ := hmi.grows hP hd' w hs
    rw [e1, e2]
    intro c hc
    rcases List.mem_append.mp hc with hc | hc
    · rcases hcov c hc with h1 | h1
      · exact Or.inl h1
      · right
        obtain ⟨i, p, g⟩ := h1
        exact Covered.append (c1 := [c]) w.allA
          (fun c' hc' => by rw [List.mem_singleton.mp hc']; exact ⟨i, p, g⟩)
          (Covered.nil (t := tb)) c (by simp)
    · right
      exact Covered.append (c1 := []) w.allA Covered.nil hct c (by simpa using hc)
  · rintro l s new x o a b w ⟨hs, hcov⟩ ha hb hacc -
    refine ⟨⟨hs.1, by simp [hs.2.1, hacc hs.1], hs.2.2⟩, ?_⟩
    intro c hc
    rcases List.mem_append.mp hc with hc | hc
    · rcases hcov c hc with h1 | h1
      · exact Or.inl (List.mem_append_left _ h1)
      · exact Or.inr h1
    · exact Or.inl (List.mem_append_right _ hc)

/-- **C87** (black boxes without `evaluate_noisy`) Whenever a later call of `optimize()` returns, the
returned value is at most every value the black box ever returned, except those dropped. -/
theorem C87_returns_best_evaluation (hP : P.twoPhase = false) (hd : ∀ p, env.dist p p = 0)
    (hm : 0 ≤ P.minDist) {fuel pause : ℕ} {r : OptResult O} (hr : IReach P env o .idle s lost)
    (h : optimize P env fuel pause s = .ret r) :
    ∀ c ∈ r.final.log, c ∈ lost ∨ r.value ≤ c.value := by
  intro c hc
  rcases C87_every_result_recorded_or_lost hP hd hm (optimize_ireach hr h) c hc with h1 | ⟨i, p, -, h2, -⟩
  · exact Or.inl h1
  · exact Or.inr ((C01_returns_best_record h).1 _ (List.mem_of_getElem? h2))

/-- **C87** Records flagged accurate keep having a genuine source. -/
theorem C87_accurate_records_genuine (hd : ∀ p, env.dist p p = 0) (hm : 0 ≤ P.minDist)
    (h : IReach P env o c s lost) :
    s.all.All (fun p v b _ => b = false → ∃ q, NearChain env P.epsZero p q ∧
      (Evaluated env s.log q v ∨ UserGave P q v)) := by
  obtain ⟨m, -, hp, -⟩ := IReach.inv_at (I := fun _ s => ProvOK P env s)
    (fun p => by rw [hd p]; exact hm) h (by simp [ProvOK, Alg.init, Table.All])
    (fun _ _ _ w hs hmi => hs.micro w hmi)
    (fun _ _ _ _ _ _ _ _ hs _ _ _ _ => hs.mono (fun p v b e hprov =>
      hprov.mono (fun c hc => List.mem_append_left _ hc)))
  have hp' : ProvOK P env s := hp
  refine hp'.mono ?_
  intro p v b e hprov hb
  obtain ⟨q, hq, h3⟩ := hprov.source
  refine ⟨q, hq, ?_⟩
  rcases h3 with h3 | ⟨_, h3⟩ | ⟨h3, _⟩
  · exact Or.inl h3
  · exact Or.inr h3
  · rw [hb] at h3; cases h3

/-- **C87** If all points the engine can ask for satisfy `Q`, then all recorded points do, and the black
box was only called at such points — dropped calls included. -/
theorem C87_domain {Q : Pt → Prop} (hd : ∀ p, env.dist p p = 0) (hm : 0 ≤ P.minDist)
    (hinit : ∀ s pts o, env.initNodes s = .ok (pts, o) → ∀ p ∈ pts, Q p)
    (huser : ∀ p ∈ P.initPos, Q p)
    (hiter : ∀ p, Q (env.toOrig (clipPt p P.lLower P.lUpper)))
    (h : IReach P env o c s lost) :
    (∀ p ∈ s.all.pos, Q p) ∧ ∀ c ∈ s.log, ∃ p, Q p ∧ c.point = env.decode p := by
  refine Exists.elim (IReach.inv_at (I := fun _ s => DomOK Q env s)
    (fun p => by rw [hd p]; exact hm) h (by simp [DomOK, Alg.init])
    (fun _ _ _ w hs hmi => hs.micro hinit huser hiter w hmi) ?_) (fun _ hp => hp.2.1)
  · rintro l s new x o a b w ⟨h1, h2⟩ - - - hask
    refine ⟨h1, ?_⟩
    intro c hc
    rcases List.mem_append.mp hc with hc | hc
    · exact h2 c hc
    · obtain ⟨p, hp, e⟩ := hask c hc
      refine ⟨p, ?_, e⟩
      rcases hp with ⟨s', pts, o', h3, h4⟩ | h3 | ⟨p0, rfl⟩
      · exact hinit s' pts o' h3 p h4
      · exact huser p h3
      · exact hiter p0

/-- **C87** Points added by iterations keep the minimum distance from the nodes. -/
theorem C87_spacing (hd : ∀ p, env.dist p p = 0) (hm : 0 ≤ P.minDist) (h : IReach P env o c s lost)
    (i j : ℕ) (p q : Pt) (hij : i < j) (hj : s.nInit ≤ j)
    (hq : s.cur.pos[i]? = some q) (hp : s.cur.pos[j]? = some p) : P.minDist < env.dist p q := by
  obtain ⟨m, -, hb, -⟩ := IReach.inv_at (I := fun _ s => SpacedOK P env s)
    (fun p => by rw [hd p]; exact hm) h (by simp [SpacedOK, Alg.init])
    (fun _ _ _ w hs hmi => hs.micro w hmi) (fun _ _ _ _ _ _ _ _ hs _ _ _ _ => hs)
  exact hb.2 i j p q hij hj hq hp

/-- **C87** A black box without `evaluate_noisy` never gets a noisy call, and no record is flagged
noisy. -/
theorem C87_no_noisy_call_unless_declared (hP : P.twoPhase = false) (hd : ∀ p, env.dist p p = 0)
    (hm : 0 ≤ P.minDist) (h : IReach P env o c s lost) :
    countNoisy s.log = 0 ∧ s.mode = .accurate ∧ s.all.All (fun _ _ b _ => b = false) := by
  obtain ⟨m, -, hb, -⟩ := IReach.inv_at (I := fun _ s => SingleOK s)
    (fun p => by rw [hd p]; exact hm) h (by simp [SingleOK, Alg.init, hP, Table.All])
    (fun _ _ _ w hs hmi => hs.micro hP w hmi)
    (fun _ _ _ _ _ _ _ _ hs _ _ hacc _ => ⟨hs.1, by simp [hs.2.1, hacc hs.1], hs.2.2⟩)
  exact ⟨hb.2.1, hb.1, fun i p v b e g1 g2 g3 g4 => (hb.2.2 i p v b e g1 g2 g3 g4).1⟩

/-- **C87** (black boxes without `evaluate_noisy`) An exception in an iteration destroys no record: the
records present before the iteration are still there, in the same order, at the beginning of the table. -/
theorem C87_records_survive (hP : P.twoPhase = false) (hd : ∀ p, env.dist p p = 0)
    (hm : 0 ≤ P.minDist) {start pause : ℕ} {loc : Loc} {new : List Call}
    (h : IReach P env o (.running start pause loc) s lost) (hc : PassCut P env s loc t new) :
    s.all.pos <+: t.all.pos ∧ s.all.val <+: t.all.val ∧ s.all.noisy <+: t.all.noisy ∧
    s.all.err <+: t.all.err := by
  have hd' : ∀ p, env.dist p p ≤ P.minDist := fun p => by rw [hd p]; exact hm
  obtain ⟨m, w, hs, hp⟩ := IReach.inv_at (I := fun _ s => SingleOK s) hd' h
    (by simp [SingleOK, Alg.init, hP, Table.All])
    (fun _ _ _ w hs hmi => hs.micro hP w hmi)
    (fun _ _ _ _ _ _ _ _ hs _ _ hacc _ => ⟨hs.1, by simp [hs.2.1, hacc hs.1], hs.2.2⟩)
  obtain ⟨u, v, k, m1, ⟨⟨x, o', a, b, e, -⟩, -, hacc⟩, m2, -⟩ := hc.split hd' w hp
  have step : ∀ a b : Alg O, (WF env a ∧ SingleOK a ∧ ∃ tb, a.all = s.all.append tb) →
      Micro P env a b → (WF env b ∧ SingleOK b ∧ ∃ tb, b.all = s.all.append tb) := by
    rintro a b ⟨wa, sa, tb, ha⟩ hab
    obtain ⟨_, tb', -, e2, -⟩ := hab.grows hP hd' wa sa
    refine ⟨wa.micro hab, sa.micro hP wa hab, tb.append tb', ?_⟩
    rw [e2, ha]
    simp [Table.append]
  have hu := Micros.inv (I := fun a => WF env a ∧ SingleOK a ∧ ∃ tb, a.all = s.all.append tb) step
    ⟨w, hs, {}, by simp [Table.append, Alg.at]⟩ m1
  have hv : WF env (v.at u.nAtRestart) ∧ SingleOK (v.at u.nAtRestart) ∧
      ∃ tb, (v.at u.nAtRestart).all = s.all.append tb := by
    rw [e]
    obtain ⟨w', s', tb, htb⟩ := hu
    exact ⟨⟨w'.curA, w'.allA, w'.le, w'.val, w'.noisy, w'.err, w'.pos⟩,
      ⟨s'.1, by simp [s'.2.1, hacc s'.1], s'.2.2⟩, tb, htb⟩
  obtain ⟨-, -, tb, ht⟩ :=
    Micros.inv (I := fun a => WF env a ∧ SingleOK a ∧ ∃ tb, a.all = s.all.append tb) step hv m2
  have ht' : t.all = s.all.append tb := ht
  rw [ht']
  simp [Table.append]

/-- **C87** Interrupted restarts count as restarts of the noisy phase: once the limit on them is used up,
also by interrupted ones (each adds one), the sample of the next restart is not evaluated with
`evaluate_noisy()`. -/
theorem C87_interrupted_restarts_count {t : Alg O} {new : List Call} (hm : s.mode = .noisy)
    (hc : RestartCut P env s t new) : t.numNoisyRestarts = s.numNoisyRestarts + 1 ∧
    (P.maxNoisyRestarts ≤ s.numNoisyRestarts → countNoisy new = 0) := by
  cases hc with
  | noSample _ _ => exact ⟨by simp [restartEnter, hm], fun _ => rfl⟩
  | @accurate pts o r k _ hin hr hacc hk =>
    obtain ⟨calls, e1, e2, e3, -⟩ :=
      evalList_spec env (r.pos.take k) { restartEnter s with opq := o }
    have hdrop : (evalList env { restartEnter s with opq := o } (r.pos.take k)).2.log.drop
        s.log.length = calls := drop_of_append (by rw [e1]; rfl)
    rw [hdrop]
    refine ⟨?_, fun _ => e3⟩
    rw [e1]; simp [restartEnter, hm]
  | @noisy pts o r k _ hin hr hacc hk =>
    obtain ⟨calls, e1, e2, e3, -⟩ :=
      evalNoisyList_spec env (r.pos.take k) { restartEnter s with opq := o }
    refine ⟨?_, fun hl => ?_⟩
    · rw [e1]; simp [restartEnter, hm]
    · exfalso
      simp only [restartAccurate, restartEnter, hm, if_true, decide_eq_false_iff_not, not_or] at hacc
      omega
  | @user tb s1 k hs hne h0 hlt hk =>
    obtain ⟨al1, c1, o, e0, hn1, -⟩ := restartSample_spec hs
    obtain ⟨pts, c1', l1, i1, -, -, -, q2, -⟩ := restartSample_calls hs
    set us := ((selectUser P env tb.pos).filterMap (fun i => P.initPos[i]?)).take k with hus
    obtain ⟨calls, e1, e2, e3, -⟩ := evalList_spec env us s1
    have hc1 : c1' = c1 := by
      rw [e0] at l1
      exact (List.append_cancel_left l1).symm
    subst hc1
    have hdrop : (evalList env s1 us).2.log.drop s.log.length = c1' ++ calls := by
      apply drop_of_append
      rw [e1, e0]
      simp [restartEnter]
    rw [hdrop]
    refine ⟨?_, fun hl => ?_⟩
    · rw [e1, e0]; simp [restartEnter, hm]
    · rw [countNoisy_append, e3]
      by_contra hne'
      have h3 := (q2 (by omega)).2.1
      simp only [restartEnter, hm, if_true] at h3
      omega

end Rbfopt
