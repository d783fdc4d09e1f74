import Verif.Spec.Interrupt
import Verif.Lemmas.More

/-!
# Invariants of runs with interrupted calls

After an interrupted `restart` the attribute that separates the current nodes from older records is
already moved, although the nodes are still the old ones.  The next pass (or call) begins with a restart
that sets it again.  The lemmas here carry invariants of `Lemmas/Invariants.lean` over this window.
-/

namespace Rbfopt

variable {O : Type}

/-- The object with another value of `num_nodes_at_restart`. -/
def Alg.at (s : Alg O) (m : ℕ) : Alg O := { s with nAtRestart := m }

@[simp] theorem Alg.at_self (s : Alg O) : s.at s.nAtRestart = s := rfl

/-- `restart` overwrites `num_nodes_at_restart`. -/
theorem restart_at (P : Params) (env : Env O) (s : Alg O) (m : ℕ) :
    restart P env (s.at m) = restart P env s := rfl

theorem shouldRestart_at (P : Params) (s : Alg O) (m : ℕ) :
    shouldRestart P (s.at m) = shouldRestart P s := rfl

/-- A point the engine may ask the black box for. -/
def Asked (P : Params) (env : Env O) (p : Pt) : Prop :=
  (∃ s pts o, env.initNodes s = .ok (pts, o) ∧ p ∈ pts) ∨ p ∈ P.initPos ∨
    ∃ p0, p = env.toOrig (clipPt p0 P.lLower P.lUpper)

/-- What an exception leaves behind, apart from `num_nodes_at_restart`. -/
structure Lossy (P : Params) (env : Env O) (s t : Alg O) (new : List Call) : Prop where
  eq : ∃ x o a b, t.at s.nAtRestart = { s with
      numNoisyRestarts := x, opq := o, log := s.log ++ new, evalcount := s.evalcount + a
      noisyEvalcount := s.noisyEvalcount + b } ∧ a ≤ countAcc new ∧ b ≤ countNoisy new ∧
      (s.itercount ≠ 0 → a = 0)
  asked : ∀ c ∈ new, ∃ p, Asked P env p ∧ c.point = env.decode p
  acc : s.mode = .accurate → countNoisy new = 0

theorem drop_of_append {α : Type} {l m n : List α} (h : n = l ++ m) : n.drop l.length = m := by
  rw [h, List.drop_left]

theorem mem_user {P : Params} {sel : List ℕ} {p : Pt}
    (h : p ∈ sel.filterMap (fun i => P.initPos[i]?)) : p ∈ P.initPos := by
  obtain ⟨i, _, hi⟩ := List.mem_filterMap.mp h
  exact List.mem_of_getElem? hi

theorem evalList_points {env : Env O} {ps : List Pt} {s : Alg O} {c : Call}
    (h : c ∈ List.zipWith (fun p v => Call.acc (env.decode p) v) ps (evalList env s ps).1) :
    ∃ p ∈ ps, c.point = env.decode p := by
  obtain ⟨p, hp, v, _, rfl⟩ := mem_zipWith_left h
  exact ⟨p, hp, rfl⟩

theorem RestartCut.lossy {P : Params} {env : Env O} {s t : Alg O} {new : List Call}
    (h : RestartCut P env s t new) : Lossy P env s t new := by
  cases h with
  | noSample _ _ =>
    exact ⟨⟨_, s.opq, 0, 0, by simp [restartEnter, Alg.at]; rfl, by simp, by simp, fun _ => rfl⟩,
      by simp, by simp⟩
  | @accurate pts o r k hc hin hr hacc hk =>
    obtain ⟨calls, e1, e2, e3, -⟩ :=
      evalList_spec env (r.pos.take k) { restartEnter s with opq := o }
    have hlog := evalList_log env (r.pos.take k) { restartEnter s with opq := o }
    have hdrop : (evalList env { restartEnter s with opq := o } (r.pos.take k)).2.log.drop
        s.log.length = calls := drop_of_append (by rw [e1]; rfl)
    obtain ⟨-, -, rsub, -⟩ := removeExistingIf_spec hr
    rw [hdrop]
    refine ⟨⟨_, o, 0, 0, by rw [e1]; simp [restartEnter, Alg.at]; rfl, by simp, by simp,
      fun _ => rfl⟩, ?_, fun _ => e3⟩
    intro c hcm
    rw [e1] at hlog
    have := List.append_cancel_left hlog
    rw [this] at hcm
    obtain ⟨p, hp, e⟩ := evalList_points hcm
    exact ⟨p, Or.inl ⟨_, pts, o, hin, rsub p (List.mem_of_mem_take hp)⟩, e⟩
  | @noisy pts o r k hc hin hr hacc hk =>
    obtain ⟨calls, e1, e2, e3, -⟩ :=
      evalNoisyList_spec env (r.pos.take k) { restartEnter s with opq := o }
    have hlog := evalNoisyList_log env (r.pos.take k) { restartEnter s with opq := o }
    have hdrop : (evalNoisyList env { restartEnter s with opq := o } (r.pos.take k)).2.log.drop
        s.log.length = calls := drop_of_append (by rw [e1]; rfl)
    obtain ⟨-, -, rsub, -⟩ := removeExistingIf_spec hr
    rw [hdrop]
    refine ⟨⟨_, o, 0, 0, by rw [e1]; simp [restartEnter, Alg.at]; rfl, by simp, by simp,
      fun _ => rfl⟩, ?_, ?_⟩
    · intro c hcm
      rw [e1] at hlog
      have := List.append_cancel_left hlog
      rw [this] at hcm
      obtain ⟨p, hp, v, _, rfl⟩ := mem_zipWith_left hcm
      exact ⟨p, Or.inl ⟨_, pts, o, hin, rsub p (List.mem_of_mem_take hp)⟩, rfl⟩
    · intro hm
      simp [restartAccurate, restartEnter, hm] at hacc
  | @user tb s1 k hs hne h0 hlt hk =>
    obtain ⟨al1, c1, o, e0, hn1, -⟩ := restartSample_spec hs
    obtain ⟨pts, c1', l1, i1, q1, q2, -⟩ := restartSample_calls hs
    set us := ((selectUser P env tb.pos).filterMap (fun i => P.initPos[i]?)).take k with hus
    obtain ⟨calls, e1, e2, e3, -⟩ := evalList_spec env us s1
    have hlog := evalList_log env us s1
    have hc1 : c1' = c1 := by
      rw [e0] at l1
      exact (List.append_cancel_left l1).symm
    subst hc1
    have hdrop : (evalList env s1 us).2.log.drop s.log.length = c1' ++ calls := by
      apply drop_of_append
      rw [e1, e0]
      simp [restartEnter]
    rw [hdrop]
    refine ⟨⟨_, o, countAcc c1', countNoisy c1', by rw [e1, e0]; simp [restartEnter, Alg.at]; rfl,
      by simp [countAcc_append], by simp [countNoisy_append], fun h => absurd h0 h⟩, ?_, ?_⟩
    · intro c hcm
      rcases List.mem_append.mp hcm with hcm | hcm
      · obtain ⟨p, hp, e⟩ := q2 c hcm
        rcases q1 with q1 | ⟨o', q1⟩
        · rw [q1] at hp; cases hp
        · exact ⟨p, Or.inl ⟨_, pts, o', q1, hp⟩, e⟩
      · rw [e1] at hlog
        have := List.append_cancel_left hlog
        rw [this] at hcm
        obtain ⟨p, hp, e⟩ := evalList_points hcm
        exact ⟨p, Or.inr (Or.inl (mem_user (List.mem_of_mem_take hp))), e⟩
    · intro hm
      rw [countNoisy_append, hn1 (by simpa [restartEnter] using hm), e3]

/-- The next pass of the main loop begins with a restart. -/
def Pending (P : Params) (s : Alg O) : Prop :=
  NotSkipped P s ∧ (shouldRestart P s = true ∨
    (s.step = P.restorationStep ∧ ¬(P.n + 1 ≤ s.cur.pos.length ∧ s.solveUnder = false)))

/-- The next thing that changes the records is a restart. -/
def PendingAt (P : Params) : Ctl → Alg O → Prop
  | .idle, s => s.itercount = 0 ∨ Pending P s
  | .running .., s => Pending P s

theorem notSkipped_restoration {P : Params} {s : Alg O} (h : s.step = P.restorationStep) :
    NotSkipped P s := by
  unfold NotSkipped
  simp only [h, Params.restorationStep, Params.infStep, Params.localStep]
  omega

theorem buildModel_restoration {P : Params} {env : Env O} {s : Alg O}
    (h : s.step = P.restorationStep) : buildModel P env s = .ok (s, false) := by
  unfold buildModel
  rw [if_neg (by rw [h]; simp [Params.localStep, Params.restorationStep]),
    if_neg (by rw [h]; simp [Params.refinementStep, Params.restorationStep])]

/-- With too few nodes (or after the underdetermined interpolation failed) the restoration step restarts. -/
theorem dispatch_restoration {P : Params} {env : Env O} (hd : ∀ p, env.dist p p ≤ P.minDist)
    {s : Alg O} {d : Dispatch O} (hs : s.step = P.restorationStep)
    (hf : ¬(P.n + 1 ≤ s.cur.pos.length ∧ s.solveUnder = false))
    (h : dispatch P env s = .ok d) :
    ∃ t, d = .skip t ∧ restart P env { s with opq := env.restOpq s } = .ok t := by
  unfold dispatch at h
  rw [if_neg (by rw [hs]; simp [Params.infStep, Params.restorationStep]), if_pos hs] at h
  unfold restorationSearch at h
  rw [restorationLoop_none hd] at h
  dsimp only at h
  rw [if_neg (by simpa using hf)] at h
  split at h
  · cases h
  · rename_i t ht
    cases h
    exact ⟨t, rfl, ht⟩

/-- A pass that begins with a restart does not depend on `num_nodes_at_restart`. -/
theorem Pending.pass {P : Params} {env : Env O} (hd : ∀ p, env.dist p p ≤ P.minDist)
    {s s' : Alg O} {loc loc' : Loc} (m : ℕ) (hp : Pending P s)
    (h : pass P env s loc = .ok (s', loc')) : Micros P env (s.at m) s' := by
  obtain ⟨hn, hp⟩ := hp
  unfold Rbfopt.pass at h
  dsimp only at h
  rw [if_neg (by exact hn)] at h
  by_cases hs : shouldRestart P s = true
  · have hr : restartIfNeeded P env { s with passes := s.passes + 1 } =
        restart P env (({ s with passes := s.passes + 1 } : Alg O).at m) := by
      rw [restart_at]
      exact if_pos hs
    have hs' : shouldRestart P (({ s with passes := s.passes + 1 } : Alg O).at m) = true := hs
    have m0 : Micros P env (s.at m) (({ s with passes := s.passes + 1 } : Alg O).at m) := .ctrl rfl
    rw [hr] at h
    split at h
    · cases h
    · rename_i s1 h1
      have m1 := m0.tail (.restart h1)
      split at h
      · cases h
      · rename_i o ho
        have m2 : Micros P env (s.at m) { s1 with opq := o } := .tail m1 (.ctrl rfl)
        split at h
        · cases h
        · rename_i s2 h2
          cases h
          exact .tail m2 (.ctrl (buildModel_data h2))
        · rename_i s2 h2
          have m3 := m2.tail (.ctrl (buildModel_data h2))
          split at h
          · cases h
          · rename_i s3 h3
            cases h
            exact m3.trans (dispatch_micros h3)
          · rename_i s3 next ref h3
            have m4 := m3.trans (dispatch_micros h3)
            split at h
            · cases h
            · rename_i s4 loc4 h4
              have m5 := m4.trans (processPoint_micros h4)
              split at h
              · cases h
              · rename_i s5 h5
                cases h
                exact m5.trans (endPass_micros h5)
  · obtain ⟨hstep, hfail⟩ := hp.resolve_left hs
    have hr : restartIfNeeded P env { s with passes := s.passes + 1 } =
        .ok { s with passes := s.passes + 1 } := if_neg hs
    rw [hr] at h
    dsimp only at h
    split at h
    · cases h
    · rename_i o ho
      rw [buildModel_restoration (s := { s with opq := o, passes := s.passes + 1 }) hstep] at h
      dsimp only at h
      split at h
      · cases h
      · rename_i s3 h3
        cases h
        obtain ⟨t, e, ht⟩ := dispatch_restoration hd (by exact hstep) (by exact hfail) h3
        cases e
        rw [← restart_at P env _ m] at ht
        exact .tail (.ctrl (by rfl)) (.restart ht)
      · rename_i s3 next ref h3
        obtain ⟨t, e, ht⟩ := dispatch_restoration hd (by exact hstep) (by exact hfail) h3
        cases e

theorem Lossy.at {P : Params} {env : Env O} {s t : Alg O} {new : List Call}
    (h : Lossy P env s t new) (m : ℕ) : Lossy P env (s.at m) t new := by
  obtain ⟨⟨x, o, a, b, e, h1, h2, h3⟩, h4, h5⟩ := h
  refine ⟨⟨x, o, a, b, ?_, h1, h2, h3⟩, h4, h5⟩
  have := congrArg (fun z => z.at m) e
  exact this

theorem Lossy.pending {P : Params} {env : Env O} {s t : Alg O} {new : List Call}
    (h : Lossy P env s t new) (hp : Pending P s) : PendingAt P .idle t := by
  obtain ⟨⟨x, o, a, b, e, h1, h2, h3⟩, h4, h5⟩ := h
  have f : ∀ {β : Type} (g : Alg O → β), g (t.at s.nAtRestart) = g
    { s with numNoisyRestarts := x, opq := o, log := s.log ++ new, evalcount := s.evalcount + a,
             noisyEvalcount := s.noisyEvalcount + b } := fun g => by rw [e]
  by_cases h0 : s.itercount = 0
  · left
    have := f (fun z => z.itercount)
    exact this.trans h0
  · right
    obtain rfl := h3 h0
    have := f (Pending P)
    exact this.mpr hp

theorem EvalCut.split {P : Params} {env : Env O} {s t : Alg O} {loc : Loc} {p0 : Pt}
    {new : List Call} (w : WF env s)
    (h : EvalCut P env s loc (env.toOrig (clipPt p0 P.lLower P.lUpper)) t new) :
    ∃ v, Lossy P env s v new ∧ v.nAtRestart = s.nAtRestart ∧ Micros P env v t := by
  have h0 : Lossy P env s s [] :=
    ⟨⟨s.numNoisyRestarts, s.opq, 0, 0, by simp, by simp, by simp, by simp⟩, by simp, by simp⟩
  cases h with
  | accurate _ _ => exact ⟨s, h0, rfl, .refl _⟩
  | noisy _ _ => exact ⟨s, h0, rfl, .refl _⟩
  | again hm hn he hreq =>
    generalize horig : env.toOrig (clipPt p0 P.lLower P.lUpper) = orig at *
    refine ⟨(noisyFirst P env s loc orig).s, ?_, ?_, .single (.log _ _)⟩
    · obtain ⟨calls, e1, e2, e3, -⟩ := noisyFirst_spec (P := P) (env := env) (loc := loc)
        (orig := orig) w.allA
      have hdrop : (noisyFirst P env s loc orig).s.log.drop s.log.length = calls :=
        drop_of_append (by rw [e1])
      rw [hdrop]
      refine ⟨?_, ?_, by rw [hm]; simp⟩
      · exact ⟨s.numNoisyRestarts, s.opq, 0, countNoisy calls, by rw [e1]; simp [Alg.at],
          by simp, le_rfl, fun _ => rfl⟩
      · intro c hc
        refine ⟨orig, Or.inr (Or.inr ⟨p0, horig.symm⟩), ?_⟩
        have hmem : c ∈ (noisyFirst P env s loc orig).s.log.drop s.log.length := by rw [hdrop]; exact hc
        unfold noisyFirst at hmem
        split at hmem
        · simp at hmem
        · simp only [objfunNoisy, List.drop_left, List.mem_singleton] at hmem
          rw [hmem]; rfl
    · obtain ⟨calls, e1, -⟩ := noisyFirst_spec (P := P) (env := env) (loc := loc)
        (orig := orig) w.allA
      rw [e1]

/-- What an interrupted pass does to the object: elementary changes, then the loss, and possibly a moved
`num_nodes_at_restart` with a restart due. -/
theorem PassCut.split {P : Params} {env : Env O} (hd : ∀ p, env.dist p p ≤ P.minDist)
    {s t : Alg O} {loc : Loc} {new : List Call} {m : ℕ} (w : WF env (s.at m))
    (hp : m = s.nAtRestart ∨ Pending P s) (h : PassCut P env s loc t new) :
    ∃ u v k, Micros P env (s.at m) u ∧ Lossy P env u v new ∧
      Micros P env (v.at u.nAtRestart) (t.at k) ∧ (k = t.nAtRestart ∨ PendingAt P .idle t) := by
  have mp : Micros P env (s.at m) (({ s with passes := s.passes + 1 } : Alg O).at m) := .ctrl rfl
  -- the state after the restart at the beginning of the pass, if there is one
  have key : ∀ s1, restartIfNeeded P env { s with passes := s.passes + 1 } = .ok s1 →
      Micros P env (s.at m) s1 ∨
      (shouldRestart P s = false ∧ s1 = { s with passes := s.passes + 1 } ∧ Pending P s) := by
    intro s1 h1
    by_cases hs : shouldRestart P s = true
    · left
      have hr : restartIfNeeded P env { s with passes := s.passes + 1 } =
          Rbfopt.restart P env (({ s with passes := s.passes + 1 } : Alg O).at m) := by
        rw [restart_at]
        exact if_pos hs
      rw [hr] at h1
      exact mp.tail (.restart h1)
    · have hr : restartIfNeeded P env { s with passes := s.passes + 1 } =
          .ok { s with passes := s.passes + 1 } := if_neg hs
      rw [hr] at h1
      cases h1
      rcases hp with rfl | hp
      · left; exact mp
      · right; exact ⟨by simpa using hs, rfl, hp⟩
  cases h with
  | restart hn hs hc =>
    have hl := hc.lossy
    refine ⟨_, t, m, mp, hl.at m, .refl _, Or.inr (hl.pending ⟨hn, Or.inl hs⟩)⟩
  | @restoration s1 s2 s3 _ o _ hn h1 ho hb hst hrs hf hc =>
    have hl := hc.lossy
    have e3 := restorationSearch_none hrs
    subst e3
    have hpend : Pending P ({ s2 with opq := env.restOpq s2 } : Alg O) :=
      ⟨notSkipped_restoration hst, Or.inr ⟨hst, hf⟩⟩
    rcases key s1 h1 with hm | ⟨hs, rfl, hpd⟩
    · have hm' : Micros P env (s.at m) { s2 with opq := env.restOpq s2 } :=
        ((hm.tail (.ctrl (s' := { s1 with opq := o }) rfl)).tail (.ctrl (buildModel_data hb))).tail
          (.ctrl rfl)
      exact ⟨_, t, _, hm', hl, .refl _, Or.inr (hl.pending hpend)⟩
    · obtain ⟨hstep, -⟩ := hpd.2.resolve_left (by rw [hs]; simp)
      rw [buildModel_restoration (s := { s with opq := o, passes := s.passes + 1 }) hstep] at hb
      cases hb
      exact ⟨_, t, m, mp.tail (.ctrl (by rfl)), hl.at m, .refl _, Or.inr (hl.pending hpend)⟩
  | @eval s1 s2 s3 _ o p0 ref d _ hn h1 ho hb hdp hmin hlt hc =>
    rcases key s1 h1 with hm | ⟨hs, rfl, hpd⟩
    · have hm2 : Micros P env (s.at m) s2 :=
        (hm.tail (.ctrl (s' := { s1 with opq := o }) rfl)).tail (.ctrl (buildModel_data hb))
      have hm3 : Micros P env (s.at m) s3 := hm2.trans (dispatch_micros hdp)
      have w3 : WF env s3 := Micros.inv (fun _ _ hs hm => hs.micro hm) w hm3
      obtain ⟨v, hv1, hv2, hv3⟩ := hc.split w3
      refine ⟨s3, v, t.nAtRestart, hm3, hv1, ?_, Or.inl rfl⟩
      rw [← hv2]
      exact hv3
    · obtain ⟨hstep, hf⟩ := hpd.2.resolve_left (by rw [hs]; simp)
      rw [buildModel_restoration (s := { s with opq := o, passes := s.passes + 1 }) hstep] at hb
      cases hb
      obtain ⟨t, e, ht⟩ := dispatch_restoration hd (by exact hstep) (by exact hf) hdp
      cases e

/-- Invariants of interrupted runs: `I` may depend on the calls whose results were dropped. -/
theorem IReach.inv {P : Params} {env : Env O} {o : O} {c : Ctl} {s : Alg O} {lost : List Call}
    {I : List Call → Alg O → Prop} (hd : ∀ p, env.dist p p ≤ P.minDist)
    (h0 : I [] (Alg.init P o))
    (hm : ∀ l s t, WF env s → I l s → Micro P env s t → I l t)
    (hl : ∀ l s t new, WF env s → I l s → Lossy P env s t new → I (l ++ new) (t.at s.nAtRestart))
    (h : IReach P env o c s lost) :
    ∃ m, WF env (s.at m) ∧ I lost (s.at m) ∧ (m = s.nAtRestart ∨ PendingAt P c s) := by
  have hms : ∀ l s t, WF env s → I l s → Micros P env s t → WF env t ∧ I l t :=
    fun l s t w hs hmi => Micros.inv (I := fun s => WF env s ∧ I l s)
      (fun s t hs hmi => ⟨hs.1.micro hmi, hm l s t hs.1 hs.2 hmi⟩) ⟨w, hs⟩ hmi
  have hls : ∀ s t new, WF env s → Lossy P env s t new → WF env (t.at s.nAtRestart) := by
    rintro s t new w ⟨⟨x, o, a, b, e, -⟩, -⟩
    rw [e]
    exact ⟨w.curA, w.allA, w.le, w.val, w.noisy, w.err, w.pos⟩
  induction h with
  | init => exact ⟨0, WF.init o, h0, Or.inl rfl⟩
  | @call s s' loc lost pause _ hs ih =>
    obtain ⟨m, w, hi, hp⟩ := ih
    by_cases hz : s.itercount = 0
    · have hs' : serialStart P env (s.at m) = .ok (s', loc) := by
        unfold serialStart firstRestart at hs ⊢
        rw [if_pos hz] at hs
        rw [if_pos (show (s.at m).itercount = 0 from hz), restart_at]
        exact hs
      obtain ⟨w', hi'⟩ := hms _ _ _ w hi (serialStart_micros hs')
      exact ⟨s'.nAtRestart, w', hi', Or.inl rfl⟩
    · have : s' = s := by
        unfold serialStart firstRestart at hs
        rw [if_neg hz] at hs
        dsimp only at hs
        split at hs
        · cases hs
        · cases hs; rfl
      subst this
      refine ⟨m, w, hi, ?_⟩
      rcases hp with hp | hp | hp
      · exact Or.inl hp
      · exact absurd hp hz
      · exact Or.inr hp
  | @callRaises s t lost new _ hz hc ih =>
    obtain ⟨m, w, hi, hp⟩ := ih
    have hlo := hc.lossy
    have hlo' := hlo.at m
    refine ⟨m, hls _ _ _ w hlo', hl _ _ _ _ w hi hlo', Or.inr (Or.inl ?_)⟩
    obtain ⟨⟨x, o, a, b, e, -⟩, -⟩ := hlo
    exact (congrArg Alg.itercount e).trans hz
  | @pass s s' start pause loc loc' lost _ hc hps ih =>
    obtain ⟨m, w, hi, hp⟩ := ih
    have hmi : Micros P env (s.at m) s' := by
      rcases hp with rfl | hp
      · exact pass_micros hps
      · exact Pending.pass hd m hp hps
    obtain ⟨w', hi'⟩ := hms _ _ _ w hi hmi
    exact ⟨s'.nAtRestart, w', hi', Or.inl rfl⟩
  | @passRaises s t start pause loc lost new _ hc hps ih =>
    obtain ⟨m, w, hi, hp⟩ := ih
    obtain ⟨u, v, k, m1, hlo, m2, hk⟩ := hps.split hd w hp
    obtain ⟨w1, hi1⟩ := hms _ _ _ w hi m1
    obtain ⟨w2, hi2⟩ := hms _ _ _ (hls _ _ _ w1 hlo) (hl _ _ _ _ w1 hi1 hlo) m2
    exact ⟨k, w2, hi2, hk⟩
  | @ret s start pause loc lost _ hc ih =>
    obtain ⟨m, w, hi, hp⟩ := ih
    obtain ⟨w', hi'⟩ := hms _ _ _ w hi
      (.ctrl (t := ({ s with elapsed := s.elapsed + env.callTime s } : Alg O).at m) rfl)
    refine ⟨m, w', hi', hp.imp id Or.inr⟩
  | @load s start pause loc lost _ ih =>
    obtain ⟨m, w, hi, hp⟩ := ih
    exact ⟨m, w, hi, hp.imp id Or.inr⟩

end Rbfopt
