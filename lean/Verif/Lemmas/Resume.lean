import Verif.Lemmas.More
import Verif.Lemmas.Flags

/-! # Pausing and resuming: the engine does not look at the elapsed time -/

namespace Rbfopt

variable {O : Type}

/-- The object with another value of `elapsed_time`. -/
def Alg.withE (s : Alg O) (e : ℚ) : Alg O := { s with elapsed := e }

/-- The search steps do not read `elapsed_time`. -/
structure Env.IgnoresElapsed (env : Env O) : Prop where
  initNodes : ∀ s e, env.initNodes (s.withE e) = env.initNodes s
  prep : ∀ s e, env.prep (s.withE e) = env.prep s
  modelFails : ∀ s e, env.modelFails (s.withE e) = env.modelFails s
  initRef : ∀ s e, env.initRef (s.withE e) = env.initRef s
  linFails : ∀ s e, env.linFails (s.withE e) = env.linFails s
  search : ∀ s e, env.search (s.withE e) = env.search s
  localSearch : ∀ s e, env.localSearch (s.withE e) = env.localSearch s
  refStep : ∀ s e, env.refStep (s.withE e) = env.refStep s
  restCand : ∀ s e, env.restCand (s.withE e) = env.restCand s
  restInvertible : ∀ s e, env.restInvertible (s.withE e) = env.restInvertible s
  restOpq : ∀ s e, env.restOpq (s.withE e) = env.restOpq s
  realImpr : ∀ s e, env.realImpr (s.withE e) = env.realImpr s

variable {P : Params} {env : Env O} {s : Alg O} {e : ℚ}

theorem evalList_withE (ps : List Pt) : evalList env (s.withE e) ps =
    ((evalList env s ps).1, (evalList env s ps).2.withE e) := by
  induction ps generalizing s with
  | nil => rfl
  | cons p ps ih =>
    have : (objfun env (s.withE e) p).2 = (objfun env s p).2.withE e := rfl
    simp only [evalList, this, ih]
    rfl

theorem evalNoisyList_withE (ps : List Pt) : evalNoisyList env (s.withE e) ps =
    ((evalNoisyList env s ps).1, (evalNoisyList env s ps).2.withE e) := by
  induction ps generalizing s with
  | nil => rfl
  | cons p ps ih =>
    have : (objfunNoisy env (s.withE e) p).2 = (objfunNoisy env s p).2.withE e := rfl
    simp only [evalNoisyList, this, ih]
    rfl

theorem updateLog_withE (v : ℚ) (g : EVal) :
    updateLog (s.withE e) v g = (updateLog s v g).withE e := by
  unfold updateLog Alg.withE
  by_cases h : g < s.bestGapShown ∧ (v : EVal) = s.fbest <;> simp [h]

theorem logInit_withE (g : EVal) (vs : List ℚ) :
    logInit (s.withE e) g vs = (logInit s g vs).withE e := by
  induction vs generalizing s with
  | nil => rfl
  | cons v vs ih => simp only [logInit, updateLog_withE, ih]

theorem logInit_withE' {s' : Alg O} (g : EVal) (vs : List ℚ) (h : s' = s.withE e) :
    logInit s' g vs = (logInit s g vs).withE e := by rw [h, logInit_withE]

theorem removeExistingLoop_withE (is : List ℕ) (r : Removal) :
    removeExistingLoop env (s.withE e) is r = removeExistingLoop env s is r := by
  induction is generalizing r with
  | nil => rfl
  | cons i is ih =>
    simp only [removeExistingLoop, ih]
    rfl

theorem removeExistingIf_withE (ps : List Pt) :
    removeExistingIf P env (s.withE e) ps = removeExistingIf P env s ps := by
  unfold removeExistingIf removeExisting
  rw [removeExistingLoop_withE]
  rfl

theorem currentGap_withE : currentGap P (s.withE e) = currentGap P s := rfl

theorem restartSample_withE (he : env.IgnoresElapsed) :
    restartSample P env (s.withE e) =
      (restartSample P env s).map (fun x => (x.1, x.2.withE e)) := by
  unfold restartSample
  rw [he.initNodes]
  by_cases hc : s.itercount > 0 ∨ P.doInit = true
  · rw [if_pos hc, if_pos (show (s.withE e).itercount > 0 ∨ P.doInit = true from hc)]
    cases env.initNodes s with
    | error x => rfl
    | ok x =>
      obtain ⟨pts, o⟩ := x
      dsimp only
      rw [show removeExistingIf P env { s.withE e with opq := o } pts =
        removeExistingIf P env { s with opq := o } pts from
        removeExistingIf_withE (s := { s with opq := o }) pts]
      cases removeExistingIf P env { s with opq := o } pts with
      | none => rfl
      | some r =>
        dsimp only
        rw [show evalList env { s.withE e with opq := o } r.pos = _ from
          evalList_withE (s := { s with opq := o }) (e := e) r.pos,
          show evalNoisyList env { s.withE e with opq := o } r.pos = _ from
          evalNoisyList_withE (s := { s with opq := o }) (e := e) r.pos,
          show restartAccurate P { s.withE e with opq := o } =
            restartAccurate P { s with opq := o } from rfl]
        split
        · rfl
        · split
          · rfl
          · rfl
  · rw [if_neg hc, if_neg (show ¬ ((s.withE e).itercount > 0 ∨ P.doInit = true) from hc)]
    rfl

theorem restartUser_withE (t : Table) :
    restartUser P env t (s.withE e) =
      (restartUser P env t s).map (fun x => (x.1, x.2.withE e)) := by
  unfold restartUser
  by_cases hc : P.initPos ≠ [] ∧ s.itercount = 0
  · rw [if_pos hc, if_pos (show P.initPos ≠ [] ∧ (s.withE e).itercount = 0 from hc)]
    dsimp only
    rw [evalList_withE]
    split <;> rfl
  · rw [if_neg hc, if_neg (show ¬ (P.initPos ≠ [] ∧ (s.withE e).itercount = 0) from hc)]
    rfl

theorem restartInstall_withE (t : Table) :
    restartInstall P env t (s.withE e) = (restartInstall P env t s).map (fun x => x.withE e) := by
  unfold restartInstall
  dsimp only
  split
  · rfl
  · cases argminVal t.val with
    | none => rfl
    | some x =>
      obtain ⟨m, i⟩ := x
      cases argmaxVal t.val with
      | none => rfl
      | some y =>
        obtain ⟨M, k⟩ := y
        dsimp only
        cases t.noisy[i]? with
        | none => rfl
        | some b =>
          dsimp only
          by_cases hlt : ((m : ℚ) : EVal) < s.fbest
          · rw [if_pos hlt, if_pos (show ((m : ℚ) : EVal) < (s.withE e).fbest from hlt)]
            simp only [currentGap]
            simp only [Alg.withE]
            split
            · rfl
            · split
              · rfl
              · show Except.ok _ = Except.ok (Alg.withE _ e)
                exact congrArg Except.ok (logInit_withE' _ _ rfl)
          · rw [if_neg hlt, if_neg (show ¬ ((m : ℚ) : EVal) < (s.withE e).fbest from hlt)]
            simp only [currentGap]
            simp only [Alg.withE]
            split
            · rfl
            · split
              · rfl
              · show Except.ok _ = Except.ok (Alg.withE _ e)
                exact congrArg Except.ok (logInit_withE' _ _ rfl)

theorem restart_withE (he : env.IgnoresElapsed) :
    restart P env (s.withE e) = (restart P env s).map (fun x => x.withE e) := by
  unfold restart
  dsimp only
  have hw : ({ s.withE e with
      numNoisyRestarts := (s.withE e).numNoisyRestarts + (if (s.withE e).mode = .noisy then 1 else 0)
      nAtRestart := (s.withE e).all.pos.length } : Alg O) =
    ({ s with numNoisyRestarts := s.numNoisyRestarts + (if s.mode = .noisy then 1 else 0)
              nAtRestart := s.all.pos.length } : Alg O).withE e := rfl
  rw [hw, restartSample_withE he]
  generalize restartSample P env _ = x
  cases x with
  | error x => rfl
  | ok x =>
    obtain ⟨t, s1⟩ := x
    simp only [Except.map]
    rw [restartUser_withE]
    generalize restartUser P env _ _ = y
    cases y with
    | error x => rfl
    | ok x =>
      obtain ⟨t, s1⟩ := x
      simp only [Except.map]
      rw [restartInstall_withE]
      rfl


theorem restorationLoop_withE (he : env.IgnoresElapsed) (fuel i : ℕ) :
    restorationLoop P env (s.withE e) fuel i = restorationLoop P env s fuel i := by
  induction fuel generalizing i with
  | zero => rfl
  | succ fuel ih =>
    simp only [restorationLoop, ih, he.restCand, he.restInvertible]
    rfl

theorem removeNode_withE (i k : ℕ) :
    removeNode (s.withE e) i k = (removeNode s i k).map (fun x => x.withE e) := by
  unfold removeNode
  by_cases h : i < s.cur.pos.length ∧ k + i < s.all.pos.length
  · rw [if_pos h]
    exact if_pos h
  · rw [if_neg h]
    exact if_neg h

theorem restorationSearch_withE (he : env.IgnoresElapsed) :
    restorationSearch P env (s.withE e) =
      (restorationSearch P env s).map (fun x => (x.1, x.2.withE e)) := by
  unfold restorationSearch
  rw [restorationLoop_withE he, he.restOpq]
  rw [show (s.withE e).cur.pos = s.cur.pos from rfl]
  cases restorationLoop P env s P.maxConsRest (s.cur.pos.length - 1) with
  | none => rfl
  | some x =>
    obtain ⟨i, p⟩ := x
    dsimp only
    rw [show removeNode { s.withE e with opq := env.restOpq s } i (s.withE e).nAtRestart = _ from
      removeNode_withE (s := { s with opq := env.restOpq s }) (e := e) i s.nAtRestart]
    cases removeNode { s with opq := env.restOpq s } i s.nAtRestart <;> rfl

theorem unlimitedRefinement_withE (hc : P.maxClock = ⊤) :
    unlimitedRefinement P (s.withE e) = unlimitedRefinement P s := by
  unfold unlimitedRefinement Alg.withE
  simp [hc]

theorem refAccept_withE (mv : Bool) (i r0 : ℕ) :
    refAccept env (s.withE e) mv i r0 =
      (refAccept env s mv i r0).map (fun x => (x.1.withE e, x.2)) := by
  unfold refAccept
  by_cases h : mv = true ∨ r0 = s.refIter
  · rw [if_pos h, if_pos (show mv = true ∨ r0 = (s.withE e).refIter from h)]
    rw [show (s.withE e).cur = s.cur from rfl, show (s.withE e).refSet = s.refSet from rfl]
    cases s.cur.pos.getLast? with
    | none => rfl
    | some c =>
      dsimp only
      split
      · split <;> rfl
      · rfl
  · rw [if_neg h, if_neg (show ¬ (mv = true ∨ r0 = (s.withE e).refIter) from h)]
    rfl

theorem refContinue_withE (hc : P.maxClock = ⊤) (i : ℕ) (rd : Bool) :
    refContinue P env (s.withE e) i rd =
      (refContinue P env s i rd).map (fun x => x.withE e) := by
  unfold refContinue
  rw [unlimitedRefinement_withE hc]
  rw [show (s.withE e).cur = s.cur from rfl, show (s.withE e).refSet = s.refSet from rfl,
    show (s.withE e).refIter = s.refIter from rfl, show (s.withE e).numCons = s.numCons from rfl,
    show (s.withE e).refRadius = s.refRadius from rfl]
  split
  · rfl
  · split
    · split
      · rfl
      · split <;> rfl
    · rfl

theorem refinementUpdate_withE (hc : P.maxClock = ⊤) (a b : ℚ) (i : ℕ) (rd : Bool) :
    refinementUpdate P env (s.withE e) a b i rd =
      (refinementUpdate P env s a b i rd).map (fun x => x.withE e) := by
  unfold refinementUpdate
  dsimp only
  rw [show (s.withE e).refSet = s.refSet from rfl,
    show (s.withE e).refRadius = s.refRadius from rfl]
  cases s.refSet[i]? with
  | none => rfl
  | some r0 =>
    dsimp only
    have hx : refAccept env { s with
          numCons := s.numCons + 1
          refRadius := (updateRefinementRadius P s.refRadius a b).1
          elapsed := e } (updateRefinementRadius P s.refRadius a b).2 i r0 = _ :=
      refAccept_withE (s := { s with
          numCons := s.numCons + 1
          refRadius := (updateRefinementRadius P s.refRadius a b).1 }) (e := e) _ _ _
    conv_lhs => dsimp only [Alg.withE]
    rw [hx]
    generalize refAccept env _ _ _ _ = x
    cases x with
    | error x => rfl
    | ok x =>
      obtain ⟨s1, k⟩ := x
      simp only [Except.map]
      rw [refContinue_withE hc]
      generalize refContinue P env _ _ _ = y
      cases y with
      | error x => rfl
      | ok s2 =>
        simp only [Except.map]
        by_cases h : s2.numCons < P.maxConsRef
        · rw [if_pos h, if_pos (show (s2.withE e).numCons < _ from h)]
          rfl
        · rw [if_neg h, if_neg (show ¬ (s2.withE e).numCons < _ from h)]

theorem buildModel_withE (he : env.IgnoresElapsed) :
    buildModel P env (s.withE e) = (buildModel P env s).map (fun x => (x.1.withE e, x.2)) := by
  unfold buildModel
  rw [show (s.withE e).step = s.step from rfl, he.modelFails]
  split
  · rfl
  · split
    · have h1 : initRefIfNeeded env (s.withE e) =
          (initRefIfNeeded env s).map (fun x => x.withE e) := by
        unfold initRefIfNeeded
        rw [he.initRef]
        rw [show (s.withE e).cur = s.cur from rfl, show (s.withE e).numCons = s.numCons from rfl,
          show (s.withE e).fminIdx = s.fminIdx from rfl]
        split
        · split
          · split <;> rfl
          · rfl
        · rfl
      rw [h1]
      cases initRefIfNeeded env s with
      | error x => rfl
      | ok s1 =>
        have h2 := he.linFails s1 e
        generalize hL : env.linFails s1 = L at h2
        obtain ⟨f, o⟩ := L
        have e1 : ∀ (t : Alg O) (y : Bool × O), env.linFails t = y →
            (match (Except.ok t : Except PyErr (Alg O)) with
              | .error e => .error e
              | .ok s =>
                let (f, o) := env.linFails s
                let s := { s with opq := o }
                if f then Except.ok ({ s with step := P.firstStep, cyc := s.cyc + 1 }, true)
                else .ok (s, false)) =
              if y.1 then Except.ok ({ t with opq := y.2, step := P.firstStep, cyc := t.cyc + 1 }, true)
                else .ok ({ t with opq := y.2 }, false) := by
          intro t y h
          rw [← h]
        refine (e1 (s1.withE e) _ h2).trans ?_
        refine Eq.trans ?_ (congrArg _ (e1 s1 _ hL).symm)
        cases f <;> rfl
    · rfl

/-- Change of the elapsed time in the outcome of a dispatch. -/
def Dispatch.withE : Dispatch O → ℚ → Dispatch O
  | .go s n r, e => .go (s.withE e) n r
  | .skip s, e => .skip (s.withE e)

theorem localDispatch_withE (lp : LocalProposal) :
    localDispatch P env (s.withE e) lp = (localDispatch P env s lp).map (fun x => x.withE e) := by
  unfold localDispatch
  rw [show (s.withE e).mode = s.mode from rfl, show (s.withE e).cur = s.cur from rfl,
    show (s.withE e).nAtRestart = s.nAtRestart from rfl]
  split
  · split
    · split
      · rfl
      · split
        · split
          · rw [removeNode_withE]
            generalize removeNode _ _ _ = x
            cases x <;> rfl
          · rfl
        · rfl
    · rfl
  · rfl

theorem eraseErr_withE (is : List ℕ) :
    eraseErr P (s.withE e) is = (eraseErr P s is).withE e := by
  unfold eraseErr
  rw [show (s.withE e).mode = s.mode from rfl]
  split <;> rfl

theorem dispatch_withE (he : env.IgnoresElapsed) :
    dispatch P env (s.withE e) = (dispatch P env s).map (fun x => x.withE e) := by
  unfold dispatch
  rw [show (s.withE e).step = s.step from rfl, he.search, he.localSearch, he.refStep,
    restorationSearch_withE he]
  split
  · cases env.search s <;> rfl
  · split
    · cases restorationSearch P env s with
      | error x => rfl
      | ok x =>
        obtain ⟨q, s1⟩ := x
        simp only [Except.map]
        cases q with
        | some p => rfl
        | none =>
          dsimp only
          rw [show (s1.withE e).cur = s1.cur from rfl,
            show (s1.withE e).solveUnder = s1.solveUnder from rfl, restart_withE he]
          split
          · rfl
          · generalize restart P env s1 = y
            cases y <;> rfl
    · split
      · cases env.localSearch s with
        | error x => rfl
        | ok x =>
          obtain ⟨lp, o⟩ := x
          refine Eq.trans ?_ (localDispatch_withE (s := eraseErr P { s with opq := o } lp.erased) lp)
          rw [← eraseErr_withE]
          rfl
      · split
        · cases env.refStep s <;> rfl
        · cases env.search s <;> rfl

/-- Two outcomes of a pass that differ only in the elapsed time and in local variables that no
longer matter. -/
def PassRel (e : ℚ) (loc loc' : Loc) : Except PyErr (Alg O × Loc) → Except PyErr (Alg O × Loc) → Prop
  | .error x, .error y => x = y
  | .ok (s1, l1), .ok (s2, l2) =>
    s2 = s1.withE e ∧ (l1.gap = l2.gap ∨ (l1.gap = loc.gap ∧ l2.gap = loc'.gap))
  | _, _ => False

theorem addNode_withE (p q : Pt) (v : ℚ) :
    addNode (s.withE e) p q v = (addNode s p q v).withE e := by
  unfold addNode Alg.withE
  dsimp only
  by_cases h1 : (v : EVal) < s.fmin <;> by_cases h2 : (v : EVal) < s.fbest <;> simp [h1, h2]

theorem afterAdd_withE (he : env.IgnoresElapsed) (hc : P.maxClock = ⊤) (ref : Option RefProposal)
    (v : ℚ) :
    afterAdd P env (s.withE e) ref v = (afterAdd P env s ref v).map (fun x => x.withE e) := by
  unfold afterAdd
  have h1 : startRefinement P (s.withE e) = startRefinement P s := by
    unfold startRefinement
    rw [unlimitedRefinement_withE hc]
    rfl
  rw [show (s.withE e).step = s.step from rfl, he.realImpr, h1]
  split
  · cases ref with
    | none => rfl
    | some rp =>
      dsimp only
      cases env.realImpr s v with
      | error x => rfl
      | ok real =>
        dsimp only
        rw [refinementUpdate_withE hc]
        generalize refinementUpdate P env _ _ _ _ _ = x
        cases x <;> rfl
  · split <;> rfl

theorem processPoint_withE (he : env.IgnoresElapsed) (hc : P.maxClock = ⊤)
    (hm : s.mode = .accurate) (loc loc' : Loc) (next : Option Pt) (ref : Option RefProposal) :
    PassRel e loc loc' (processPoint P env s loc next ref)
      (processPoint P env (s.withE e) loc' next ref) := by
  unfold processPoint
  cases next with
  | none => exact ⟨rfl, Or.inr ⟨rfl, rfl⟩⟩
  | some p0 =>
    dsimp only
    rw [show (s.withE e).cur = s.cur from rfl]
    cases getMinDistance env.dist (clipPt p0 P.lLower P.lUpper) s.cur.pos with
    | none => exact rfl
    | some d =>
      dsimp only
      split
      · exact ⟨rfl, Or.inr ⟨rfl, rfl⟩⟩
      · generalize env.toOrig (clipPt p0 P.lLower P.lUpper) = orig
        generalize clipPt p0 P.lLower P.lUpper = p
        obtain ⟨s1, v, e1, e2⟩ : ∃ s1 v,
            evaluateNext P env s loc orig =
              .ok { s := s1, val := v, isNoisy := false, err := loc.err } ∧
            evaluateNext P env (s.withE e) loc' orig =
              .ok { s := s1.withE e, val := v, isNoisy := false, err := loc'.err } := by
          unfold evaluateNext
          rw [if_pos hm, if_pos (show (s.withE e).mode = .accurate from hm)]
          rw [show reuseAcc P env (s.withE e) orig = reuseAcc P env s orig from rfl]
          cases reuseAcc P env s orig with
          | none => exact ⟨_, _, rfl, rfl⟩
          | some v => exact ⟨_, _, rfl, rfl⟩
        rw [e1, e2]
        dsimp only [addResult]
        simp only [Bool.false_eq_true, if_false]
        rw [addNode_withE, currentGap_withE]
        generalize addNode s1 p orig v = s2
        cases currentGap P s2 with
        | error x => exact rfl
        | ok gap =>
          dsimp only
          rw [updateLog_withE, afterAdd_withE he hc]
          generalize afterAdd P env (updateLog s2 v gap) ref v = y
          cases y with
          | error x => exact rfl
          | ok s3 => exact ⟨rfl, Or.inl rfl⟩

theorem endPass_withE : endPass P (s.withE e) = (endPass P s).map (fun x => x.withE e) := by
  unfold endPass
  dsimp only
  have h1 : ∀ t : Alg O, stallingUpdate P (t.withE e) = (stallingUpdate P t).withE e := by
    intro t
    unfold stallingUpdate
    rw [show (t.withE e).fminStall = t.fminStall from rfl,
      show (t.withE e).fmin = t.fmin from rfl]
    split
    · rfl
    · split <;> rfl
  have h2 : ∀ t : Alg O, phaseUpdate P (t.withE e) = (phaseUpdate P t).withE e := by
    intro t
    unfold phaseUpdate
    by_cases h : P.twoPhase = true ∧ t.mode = .noisy ∧
      (t.numNoisyRestarts > P.maxNoisyRestarts ∨ t.itercount ≥ P.maxNoisyIter ∨
       t.noisyEvalcount ≥ P.maxNoisyEval)
    · rw [if_pos h]
      exact if_pos h
    · rw [if_neg h]
      exact if_neg h
  have h3 := h1 { s with itercount := s.itercount + 1 }
  rw [show ({ s.withE e with itercount := (s.withE e).itercount + 1 } : Alg O) =
    Alg.withE { s with itercount := s.itercount + 1 } e from rfl, h3, h2]
  split <;> rfl

end Rbfopt
