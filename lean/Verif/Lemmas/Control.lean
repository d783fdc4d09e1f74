import Verif.Lemmas.Invariants
import Verif.Lemmas.RestartCalls

/-! # Control flow of a pass -/

namespace Rbfopt

variable {O : Type}

/-- The steps a pass skips because the user switched them off. -/
def skipped (P : Params) (s : Alg O) : Prop :=
  (s.step = P.infStep ∧ P.doInf = false) ∨ (s.step = P.localStep ∧ P.doLocal = false)

/-- Shape of a pass that iterates (adds or discards a point). -/
structure PassIter (P : Params) (env : Env O) (s : Alg O) (loc : Loc) (s' : Alg O) (loc' : Loc)
    (s1 s2 s3 s4 : Alg O) (o : O) (next : Option Pt) (ref : Option RefProposal) : Prop where
  notSkipped : ¬ skipped P s
  restart : restartIfNeeded P env { s with passes := s.passes + 1 } = .ok s1
  prep : env.prep s1 = .ok o
  build : buildModel P env { s1 with opq := o } = .ok (s2, false)
  disp : dispatch P env s2 = .ok (.go s3 next ref)
  proc : processPoint P env s3 loc next ref = .ok (s4, loc')
  fin : endPass P s4 = .ok s'

/-- The four ways a pass can end normally. -/
inductive PassOut (P : Params) (env : Env O) (s : Alg O) (loc : Loc) (s' : Alg O) (loc' : Loc) : Prop
  | skip : skipped P s → s' = advanceStep P { s with passes := s.passes + 1 } → loc' = loc →
      PassOut P env s loc s' loc'
  | linFail (s1 : Alg O) (o : O) : ¬ skipped P s →
      restartIfNeeded P env { s with passes := s.passes + 1 } = .ok s1 → env.prep s1 = .ok o →
      buildModel P env { s1 with opq := o } = .ok (s', true) → loc' = loc →
      PassOut P env s loc s' loc'
  | cont (s1 s2 : Alg O) (o : O) : ¬ skipped P s →
      restartIfNeeded P env { s with passes := s.passes + 1 } = .ok s1 → env.prep s1 = .ok o →
      buildModel P env { s1 with opq := o } = .ok (s2, false) →
      dispatch P env s2 = .ok (.skip s') → loc' = loc → PassOut P env s loc s' loc'
  | iter (s1 s2 s3 s4 : Alg O) (o : O) (next : Option Pt) (ref : Option RefProposal) :
      PassIter P env s loc s' loc' s1 s2 s3 s4 o next ref → PassOut P env s loc s' loc'

theorem pass_inv {P : Params} {env : Env O} {s s' : Alg O} {loc loc' : Loc}
    (h : pass P env s loc = .ok (s', loc')) : PassOut P env s loc s' loc' := by
  unfold pass at h
  dsimp only at h
  split at h
  · rename_i hs
    cases h
    exact .skip hs rfl rfl
  · rename_i hs
    split at h
    · cases h
    · rename_i s1 h1
      split at h
      · cases h
      · rename_i o ho
        split at h
        · cases h
        · rename_i s2 h2
          cases h
          exact .linFail s1 o hs h1 ho h2 rfl
        · rename_i s2 h2
          split at h
          · cases h
          · rename_i s3 h3
            cases h
            exact .cont s1 s2 o hs h1 ho h2 h3 rfl
          · rename_i s3 next ref h3
            split at h
            · cases h
            · rename_i s4 loc4 h4
              split at h
              · cases h
              · rename_i s5 h5
                cases h
                exact .iter s1 s2 s3 s4 o next ref ⟨hs, h1, ho, h2, h3, h4, h5⟩

/-- `s'` differs from `s` in no control variable. -/
structure SameCtl (s s' : Alg O) : Prop where
  itercount : s'.itercount = s.itercount
  step : s'.step = s.step
  cyc : s'.cyc = s.cyc
  numCons : s'.numCons = s.numCons
  numStalled : s'.numStalled = s.numStalled
  fminStall : s'.fminStall = s.fminStall
  refSet : s'.refSet = s.refSet
  refRadius : s'.refRadius = s.refRadius
  refIter : s'.refIter = s.refIter
  discarded : s'.discarded = s.discarded
  iterLastRefine : s'.iterLastRefine = s.iterLastRefine
  solveUnder : s'.solveUnder = s.solveUnder
  numNoisyRestarts : s'.numNoisyRestarts = s.numNoisyRestarts
  elapsed : s'.elapsed = s.elapsed
  passes : s'.passes = s.passes
  mode : s'.mode = s.mode

theorem SameCtl.refl (s : Alg O) : SameCtl s s := by constructor <;> rfl

theorem SameCtl.trans {s t u : Alg O} (h : SameCtl s t) (h' : SameCtl t u) : SameCtl s u := by
  cases h; cases h'; constructor <;> (rename_i a _ _ ; first | simp_all)

theorem SameCtl.updateLog (s : Alg O) (obj : ℚ) (gap : EVal) : SameCtl s (updateLog s obj gap) := by
  obtain ⟨g, st, e⟩ := updateLog_frame s obj gap
  rw [e]; constructor <;> rfl

theorem SameCtl.removeNode {s s' : Alg O} {i k : ℕ} (h : removeNode s i k = .ok s') :
    SameCtl s s' := by
  obtain ⟨_, _, rfl⟩ := removeNode_spec h
  constructor <;> rfl

theorem SameCtl.evaluateNext {P : Params} {env : Env O} {s : Alg O} {loc : Loc} {orig : Pt}
    {r : EvalRes O} (h : evaluateNext P env s loc orig = .ok r) (ha : s.all.Aligned) :
    SameCtl s r.s := by
  obtain ⟨calls, ho⟩ := evaluateNext_spec h ha
  obtain ⟨g, st, e⟩ := ho.state
  rw [e]; constructor <;> rfl

theorem SameCtl.addResult {s s' : Alg O} {p orig : Pt} {r : EvalRes O}
    (h : addResult s p orig r = .ok s') : SameCtl s s' := by
  unfold Rbfopt.addResult at h
  split at h
  · split at h
    · cases h
    · cases h
      unfold addNoisyNode
      dsimp only
      split <;> split <;> constructor <;> rfl
  · cases h
    unfold addNode
    dsimp only
    split <;> split <;> constructor <;> rfl

theorem localDispatch_go {P : Params} {env : Env O} {s s' : Alg O} {lp : LocalProposal}
    {next : Option Pt} {ref : Option RefProposal}
    (h : localDispatch P env s lp = .ok (.go s' next ref)) : SameCtl s s' ∧ ref = none := by
  unfold localDispatch at h
  split at h
  · split at h
    · split at h
      · cases h
      · split at h
        · split at h
          · split at h
            · cases h
            · rename_i hr
              cases h; exact ⟨SameCtl.removeNode hr, rfl⟩
          · cases h; exact ⟨.refl _, rfl⟩
        · cases h
    · cases h; exact ⟨.refl _, rfl⟩
  · cases h; exact ⟨.refl _, rfl⟩

theorem SameCtl.erase {P : Params} (s : Alg O) (is : List ℕ) : SameCtl s (eraseErr P s is) := by
  unfold eraseErr
  split <;> constructor <;> rfl

theorem restorationSearch_same {P : Params} {env : Env O} {s s' : Alg O} {q : Option Pt}
    (h : restorationSearch P env s = .ok (q, s')) : SameCtl s s' := by
  unfold restorationSearch at h
  split at h
  · cases h; constructor <;> rfl
  · split at h
    · cases h
    · rename_i hr
      cases h
      exact SameCtl.trans (t := { s with opq := env.restOpq s }) (by constructor <;> rfl)
        (SameCtl.removeNode hr)

theorem dispatch_go {P : Params} {env : Env O} {s s' : Alg O} {next : Option Pt}
    {ref : Option RefProposal} (h : dispatch P env s = .ok (.go s' next ref)) :
    SameCtl s s' ∧ (s.step = P.refinementStep ↔ ref.isSome = true) := by
  have h1 : P.refinementStep ≠ P.infStep := by simp [Params.refinementStep, Params.infStep]
  have h2 : P.refinementStep ≠ P.restorationStep := by
    simp [Params.refinementStep, Params.restorationStep]
  have h3 : P.refinementStep ≠ P.localStep := by simp [Params.refinementStep, Params.localStep]
  unfold dispatch at h
  split at h
  · rename_i hs
    split at h
    · cases h
    · cases h; refine ⟨by constructor <;> rfl, by simp [hs, h1.symm]⟩
  · split at h
    · rename_i hs
      split at h
      · cases h
      · split at h
        · cases h
        · split at h
          · cases h
          · cases h
      · rename_i hr
        cases h
        exact ⟨restorationSearch_same hr, by simp [hs, h2.symm]⟩
    · split at h
      · rename_i hs
        split at h
        · cases h
        · rename_i lp o _
          obtain ⟨g1, g2⟩ := localDispatch_go h
          refine ⟨SameCtl.trans (t := { s with opq := o }) (by constructor <;> rfl)
            ((SameCtl.erase _ _).trans g1), ?_⟩
          simp [hs, h3.symm, g2]
      · split at h
        · rename_i hs
          split at h
          · cases h
          · cases h; exact ⟨by constructor <;> rfl, by simp [hs]⟩
        · rename_i hs
          split at h
          · cases h
          · cases h; exact ⟨by constructor <;> rfl, by simp [hs]⟩

/-- A dispatch that ends in `continue`: failed restoration, followed by a skip or a restart. -/
theorem dispatch_skip {P : Params} {env : Env O} {s s' : Alg O}
    (h : dispatch P env s = .ok (.skip s')) :
    s.step = P.restorationStep ∧ ∃ s1, restorationSearch P env s = .ok (none, s1) ∧
      ((s1.cur.pos.length ≥ P.n + 1 ∧ s1.solveUnder = false ∧
          s' = { advanceStep P s1 with solveUnder := true }) ∨ restart P env s1 = .ok s') := by
  unfold dispatch at h
  split at h
  · split at h <;> cases h
  · split at h
    · rename_i hs
      refine ⟨hs, ?_⟩
      split at h
      · cases h
      · rename_i s1 hr
        split at h
        · rename_i hc
          cases h
          exact ⟨s1, hr, Or.inl ⟨hc.1, hc.2, rfl⟩⟩
        · split at h
          · cases h
          · rename_i s2 h2
            cases h
            exact ⟨s1, hr, Or.inr h2⟩
      · cases h
    · split at h
      · split at h
        · cases h
        · exact absurd h localDispatch_not_skip
      · split at h
        · split at h <;> cases h
        · split at h <;> cases h

theorem restorationSearch_none {P : Params} {env : Env O} {s s' : Alg O}
    (h : restorationSearch P env s = .ok (none, s')) : s' = { s with opq := env.restOpq s } := by
  unfold restorationSearch at h
  split at h
  · cases h; rfl
  · split at h
    · cases h
    · cases h

theorem initRefIfNeeded_cases {env : Env O} {s s' : Alg O} (h : initRefIfNeeded env s = .ok s') :
    (s.numCons = 0 ∧ s.fminIdx < s.cur.pos.length ∧ ∃ set rad o, env.initRef s = .ok ((set, rad), o) ∧
      s' = { s with refSet := set, refRadius := rad, refIter := s.fminIdx, opq := o }) ∨
    (s.numCons ≠ 0 ∧ s' = s) := by
  unfold initRefIfNeeded at h
  split at h
  · rename_i h0
    split at h
    · rename_i hl
      split at h
      · cases h
      · rename_i set rad o hi
        cases h
        exact Or.inl ⟨h0, hl, set, rad, o, hi, rfl⟩
    · cases h
  · rename_i h0
    cases h
    exact Or.inr ⟨h0, rfl⟩

theorem buildModel_false {P : Params} {env : Env O} {s s' : Alg O}
    (h : buildModel P env s = .ok (s', false)) :
    (s.step ≤ P.localStep ∧ ∃ o, (s' = { s with opq := o } ∨
      s' = { s with opq := o, step := P.restorationStep })) ∨
    (s.step = P.refinementStep ∧ ∃ s1 o, initRefIfNeeded env s = .ok s1 ∧ s' = { s1 with opq := o }) ∨
    (s.step > P.refinementStep ∧ s' = s) := by
  unfold buildModel at h
  split at h
  · rename_i hs
    dsimp only at h
    cases h
    refine Or.inl ⟨hs, (env.modelFails s).2, ?_⟩
    split
    · right; rfl
    · left; rfl
  · rename_i hs
    split at h
    · rename_i hr
      split at h
      · cases h
      · rename_i s1 h1
        dsimp only at h
        split at h
        · cases h
        · cases h
          exact Or.inr (Or.inl ⟨hr, s1, _, h1, rfl⟩)
    · rename_i hr
      cases h
      refine Or.inr (Or.inr ⟨?_, rfl⟩)
      simp only [Params.localStep, Params.refinementStep] at *
      omega

theorem buildModel_true {P : Params} {env : Env O} {s s' : Alg O}
    (h : buildModel P env s = .ok (s', true)) :
    s.step = P.refinementStep ∧ ∃ s1 o, initRefIfNeeded env s = .ok s1 ∧
      s' = { s1 with opq := o, step := P.firstStep, cyc := s1.cyc + 1 } := by
  unfold buildModel at h
  split at h
  · cases h
  · split at h
    · rename_i hr
      split at h
      · cases h
      · rename_i s1 h1
        dsimp only at h
        split at h
        · cases h
          exact ⟨hr, s1, _, h1, rfl⟩
        · cases h
    · cases h

theorem restartIfNeeded_cases {P : Params} {env : Env O} {s s' : Alg O}
    (h : restartIfNeeded P env s = .ok s') :
    (shouldRestart P s = true ∧ restart P env s = .ok s') ∨ (shouldRestart P s = false ∧ s' = s) := by
  unfold restartIfNeeded at h
  split at h
  · rename_i hc; exact Or.inl ⟨hc, h⟩
  · rename_i hc; cases h; exact Or.inr ⟨by simpa using hc, rfl⟩

/-- Processing the proposed point: it is discarded, or evaluated and added. -/
theorem processPoint_cases {P : Params} {env : Env O} {s s' : Alg O} {loc loc' : Loc}
    {next : Option Pt} {ref : Option RefProposal}
    (h : processPoint P env s loc next ref = .ok (s', loc')) :
    (s' = discardPoint P s ∧ loc' = loc) ∨
    ∃ p0 d r s1 gap s2, next = some p0 ∧
      getMinDistance env.dist (clipPt p0 P.lLower P.lUpper) s.cur.pos = some d ∧ P.minDist < d ∧
      evaluateNext P env s loc (env.toOrig (clipPt p0 P.lLower P.lUpper)) = .ok r ∧
      addResult r.s (clipPt p0 P.lLower P.lUpper)
        (env.toOrig (clipPt p0 P.lLower P.lUpper)) r = .ok s1 ∧
      currentGap P s1 = .ok gap ∧
      afterAdd P env (updateLog s1 r.val gap) ref r.val = .ok s2 ∧
      s' = { s2 with discarded := dequePush P.discWindow s2.discarded false } ∧
      loc' = { gap := gap, err := r.err } := by
  unfold processPoint at h
  split at h
  · cases h; exact Or.inl ⟨rfl, rfl⟩
  · rename_i p0
    dsimp only at h
    split at h
    · cases h
    · rename_i d hd
      split at h
      · cases h; exact Or.inl ⟨rfl, rfl⟩
      · rename_i hgt
        split at h
        · cases h
        · rename_i r hr
          split at h
          · cases h
          · rename_i s1 h1
            split at h
            · cases h
            · rename_i gap hg
              split at h
              · cases h
              · rename_i s2 h2
                cases h
                exact Or.inr ⟨p0, d, r, s1, gap, s2, rfl, hd, not_le.mp hgt, hr, h1, hg, h2, rfl,
                  rfl⟩

theorem afterAdd_cases {P : Params} {env : Env O} {s s' : Alg O} {ref : Option RefProposal} {v : ℚ}
    (h : afterAdd P env s ref v = .ok s') :
    (s.step = P.refinementStep ∧ ∃ rp real s1, ref = some rp ∧ env.realImpr s v = .ok real ∧
      refinementUpdate P env s rp.modelImpr real rp.toReplace rp.rankDeficient = .ok s1 ∧
      s' = { s1 with iterLastRefine := s1.itercount }) ∨
    (s.step ≠ P.refinementStep ∧ startRefinement P s = true ∧
      s' = { s with step := P.refinementStep, iterLastRefine := s.itercount }) ∨
    (s.step ≠ P.refinementStep ∧ startRefinement P s = false ∧ s' = advanceStep P s) := by
  unfold afterAdd at h
  split at h
  · rename_i hs
    split at h
    · cases h
    · rename_i rp
      split at h
      · cases h
      · rename_i real hreal
        split at h
        · cases h
        · rename_i s1 h1
          cases h
          exact Or.inl ⟨hs, rp, real, s1, rfl, hreal, h1, rfl⟩
  · rename_i hs
    split at h
    · rename_i hr; cases h; exact Or.inr (Or.inl ⟨hs, hr, rfl⟩)
    · rename_i hr; cases h; exact Or.inr (Or.inr ⟨hs, by simpa using hr, rfl⟩)

theorem refAccept_cases {env : Env O} {s s' : Alg O} {mv : Bool} {t r0 t' : ℕ}
    (h : refAccept env s mv t r0 = .ok (s', t')) :
    (s' = { s with refIter := s.cur.pos.length - 1 } ∧ s.cur.pos ≠ [] ∧ t' < s.refSet.length ∧
      (mv = true ∨ r0 = s.refIter)) ∨ (s' = s ∧ t' = t ∧ mv = false ∧ r0 ≠ s.refIter) := by
  unfold refAccept at h
  split at h
  · rename_i hmv
    split at h
    · cases h
    · rename_i c hc
      split at h
      · rename_i hall
        split at h
        · cases h
        · rename_i d t1 ht
          cases h
          left
          refine ⟨rfl, by rintro h0; simp [h0] at hc, ?_, hmv⟩
          obtain ⟨q, hq, _⟩ := getMaxDistanceAndIndex_some ht
          have hlt := (List.getElem?_eq_some_iff.mp hq).1
          rw [filterMap_getElem?_length _ _ hall] at hlt
          exact hlt
      · cases h
  · rename_i hmv
    cases h
    simp only [not_or, Bool.not_eq_true] at hmv
    exact Or.inr ⟨rfl, rfl, hmv.1, hmv.2⟩

theorem refContinue_cases {P : Params} {env : Env O} {s s' : Alg O} {t : ℕ} {b : Bool}
    (h : refContinue P env s t b = .ok s') :
    ((s.refRadius < P.refMinRadius ∨ (s.numCons ≥ P.maxConsRef ∧ unlimitedRefinement P s = false)) ∧
      s' = { s with numCons := 0, step := P.firstStep, cyc := s.cyc + 1 }) ∨
    (¬ (s.refRadius < P.refMinRadius ∨
        (s.numCons ≥ P.maxConsRef ∧ unlimitedRefinement P s = false)) ∧
      s.cur.pos ≠ [] ∧
      (s' = s ∨ s' = { s with refSet := s.refSet.set t (s.cur.pos.length - 1) })) := by
  unfold refContinue at h
  split at h
  · rename_i hc; cases h; exact Or.inl ⟨hc, rfl⟩
  · rename_i hc
    right
    refine ⟨hc, ?_⟩
    split at h
    · rename_i last it r hl hi hr
      have hne : s.cur.pos ≠ [] := by rintro h0; simp [h0] at hl
      refine ⟨hne, ?_⟩
      split at h
      · cases h
      · split at h
        · cases h; exact Or.inr rfl
        · cases h; exact Or.inl rfl
    · cases h

/-- Outcome of `refinement_update`: the phase ends, or it goes on with one more refinement
counted. -/
theorem refinementUpdate_cases {P : Params} {env : Env O} {s s' : Alg O} {mi ri : ℚ} {t : ℕ}
    {rd : Bool} (h : refinementUpdate P env s mi ri t rd = .ok s') :
    t < s.refSet.length ∧ s'.refRadius = (updateRefinementRadius P s.refRadius mi ri).1 ∧
    s'.cur = s.cur ∧ s'.itercount = s.itercount ∧ s'.numStalled = s.numStalled ∧
    s'.fminStall = s.fminStall ∧
    s'.numNoisyRestarts = s.numNoisyRestarts ∧ s'.passes = s.passes ∧ s'.elapsed = s.elapsed ∧
    s'.discarded = s.discarded ∧ s'.solveUnder = s.solveUnder ∧
    ((s'.step = P.firstStep ∧ s'.cyc = s.cyc + 1 ∧ s'.numCons = 0 ∧
        (s'.refRadius < P.refMinRadius ∨
          (s.numCons + 1 ≥ P.maxConsRef ∧ unlimitedRefinement P s' = false))) ∨
     (s'.step = s.step ∧ s'.cyc = s.cyc ∧ s'.numCons = s.numCons + 1 ∧
        ¬ s'.refRadius < P.refMinRadius ∧
        (s'.numCons < P.maxConsRef ∨ unlimitedRefinement P s' = true) ∧
        s.cur.pos ≠ [] ∧
        (s'.refIter = s.refIter ∨ s'.refIter = s.cur.pos.length - 1) ∧
        ∃ k, s'.refSet = s.refSet ∨ s'.refSet = s.refSet.set k (s.cur.pos.length - 1))) := by
  unfold refinementUpdate at h
  dsimp only at h
  split at h
  · cases h
  · rename_i r0 hr0
    have ht := (List.getElem?_eq_some_iff.mp hr0).1
    split at h
    · cases h
    · rename_i s1 t1 h1
      split at h
      · cases h
      · rename_i s2 h2
        cases h
        refine ⟨ht, ?_⟩
        have e1 := refAccept_cases h1
        have e2 := refContinue_cases h2
        have hu : ∀ a : Alg O, unlimitedRefinement P { a with fminLastRefine := a.fmin } =
            unlimitedRefinement P a := fun _ => rfl
        rcases e1 with ⟨rfl, e1, _⟩ | ⟨rfl, e1, _⟩ <;>
          rcases e2 with ⟨e2, rfl⟩ | ⟨e2, e3, rfl | rfl⟩ <;> dsimp only at * <;>
          (split <;> dsimp only <;>
            (refine ⟨rfl, rfl, rfl, rfl, rfl, rfl, rfl, rfl, rfl, rfl, ?_⟩))
        all_goals
          first
          | exact Or.inl ⟨rfl, rfl, rfl, e2⟩
          | (refine Or.inr ⟨rfl, rfl, rfl, fun h => e2 (Or.inl h), ?_, e3, ?_, ?_⟩
             · by_cases hlt : s.numCons + 1 < P.maxConsRef
               · exact Or.inl hlt
               · right
                 by_contra hun
                 exact e2 (Or.inr ⟨not_lt.mp hlt, by rw [Bool.not_eq_true] at hun; exact hun⟩)
             · first | exact Or.inl rfl | exact Or.inr rfl
             · first | exact ⟨0, Or.inl rfl⟩ | exact ⟨t1, Or.inr rfl⟩)

end Rbfopt
