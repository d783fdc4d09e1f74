import Verif.Spec.Reach

/-!
# Decomposition of a pass into elementary changes of the recorded data
-/

namespace Rbfopt

variable {O : Type}

/-- The part of the state that carries recorded data. -/
structure Data where
  evalcount : ℕ
  noisyEvalcount : ℕ
  mode : Mode
  cur : Table
  all : Table
  nAtRestart : ℕ
  fminIdx : ℕ
  fmin : EVal
  fmax : EVal
  fbestIdx : ℕ
  fbest : EVal
  isFminNoisy : Bool
  isFbestNoisy : Bool
  bestGapShown : EVal
  log : List Call
  stars : List (EVal × ℚ × EVal)
  nInit : ℕ

/-- Projection to the recorded data. -/
def Alg.data (s : Alg O) : Data :=
  { evalcount := s.evalcount, noisyEvalcount := s.noisyEvalcount, mode := s.mode, cur := s.cur,
    all := s.all, nAtRestart := s.nAtRestart, fminIdx := s.fminIdx, fmin := s.fmin,
    fmax := s.fmax, fbestIdx := s.fbestIdx, fbest := s.fbest, isFminNoisy := s.isFminNoisy,
    isFbestNoisy := s.isFbestNoisy, bestGapShown := s.bestGapShown, log := s.log,
    stars := s.stars, nInit := s.nInit }

/-- Elementary changes. -/
inductive Micro (P : Params) (env : Env O) : Alg O → Alg O → Prop
  | ctrl {s s'} : s'.data = s.data → Micro P env s s'
  | log {s} (obj : ℚ) (gap : EVal) : Micro P env s (updateLog s obj gap)
  | restart {s s'} : restart P env s = .ok s' → Micro P env s s'
  | removeLocal {s s'} (i : ℕ) : P.twoPhase = true → s.mode = .accurate →
      removeNode s i s.nAtRestart = .ok s' → Micro P env s s'
  | erase {s : Alg O} (is : List ℕ) : P.twoPhase = true → s.mode = .accurate →
      Micro P env s { s with cur := { s.cur with
        err := s.cur.err.mapIdx (fun i e => if i ∈ is then (0, 0) else e) } }
  | removeRest {s s'} (i : ℕ) (p : Pt) (t : Alg O) :
      restorationLoop P env t P.maxConsRest (t.cur.pos.length - 1) = some (i, p) →
      removeNode s i s.nAtRestart = .ok s' → Micro P env s s'
  | add {s s' : Alg O} (loc : Loc) (p0 : Pt) (d : ℚ) (r : EvalRes O) :
      getMinDistance env.dist (clipPt p0 P.lLower P.lUpper) s.cur.pos = some d → P.minDist < d →
      evaluateNext P env s loc (env.toOrig (clipPt p0 P.lLower P.lUpper)) = .ok r →
      addResult r.s (clipPt p0 P.lLower P.lUpper)
        (env.toOrig (clipPt p0 P.lLower P.lUpper)) r = .ok s' →
      Micro P env s s'
  | phase {s : Alg O} : P.twoPhase = true → s.mode = .noisy →
      Micro P env s { s with mode := .accurate }

/-- Finite sequences of elementary changes. -/
inductive Micros (P : Params) (env : Env O) : Alg O → Alg O → Prop
  | refl (s) : Micros P env s s
  | tail {s t u} : Micros P env s t → Micro P env t u → Micros P env s u

theorem Micros.single {P : Params} {env : Env O} {s t : Alg O} (h : Micro P env s t) :
    Micros P env s t := .tail (.refl s) h

theorem Micros.trans {P : Params} {env : Env O} {s t u : Alg O} (h : Micros P env s t)
    (h' : Micros P env t u) : Micros P env s u := by
  induction h' with
  | refl => exact h
  | tail _ hm ih => exact .tail ih hm

theorem Micros.ctrl {P : Params} {env : Env O} {s t : Alg O} (h : t.data = s.data) :
    Micros P env s t := .single (.ctrl h)

theorem advanceStep_data (P : Params) (s : Alg O) : (advanceStep P s).data = s.data := rfl

theorem stallingUpdate_data (P : Params) (s : Alg O) : (stallingUpdate P s).data = s.data := by
  unfold stallingUpdate
  split
  · rfl
  · split <;> rfl

theorem discardPoint_data (P : Params) (s : Alg O) : (discardPoint P s).data = s.data := rfl

theorem initRefIfNeeded_data {env : Env O} {s s' : Alg O} (h : initRefIfNeeded env s = .ok s') :
    s'.data = s.data := by
  unfold initRefIfNeeded at h
  split at h
  · split at h
    · split at h
      · cases h
      · cases h; rfl
    · cases h
  · cases h; rfl

theorem buildModel_data {P : Params} {env : Env O} {s s' : Alg O} {b : Bool}
    (h : buildModel P env s = .ok (s', b)) : s'.data = s.data := by
  unfold buildModel at h
  split at h
  · cases h; rfl
  · split at h
    · split at h
      · cases h
      · rename_i s1 h1
        have := initRefIfNeeded_data h1
        dsimp only at h
        split at h <;> · cases h; exact this
    · cases h; rfl

theorem refAccept_data {env : Env O} {s s' : Alg O} {mv : Bool} {t r t' : ℕ}
    (h : refAccept env s mv t r = .ok (s', t')) : s'.data = s.data := by
  unfold refAccept at h
  split at h
  · split at h
    · cases h
    · split at h
      · split at h
        · cases h
        · cases h; rfl
      · cases h
  · cases h; rfl

theorem refContinue_data {P : Params} {env : Env O} {s s' : Alg O} {t : ℕ} {b : Bool}
    (h : refContinue P env s t b = .ok s') : s'.data = s.data := by
  unfold refContinue at h
  split at h
  · cases h; rfl
  · split at h
    · split at h
      · cases h
      · split at h <;> · cases h; rfl
    · cases h

theorem refinementUpdate_data {P : Params} {env : Env O} {s s' : Alg O} {a b : ℚ} {t : ℕ}
    {rd : Bool} (h : refinementUpdate P env s a b t rd = .ok s') : s'.data = s.data := by
  unfold refinementUpdate at h
  dsimp only at h
  split at h
  · cases h
  · split at h
    · cases h
    · rename_i s1 t1 h1
      have e1 := refAccept_data h1
      split at h
      · cases h
      · rename_i s2 h2
        have e2 := refContinue_data h2
        cases h
        split <;> · exact e2.trans e1

theorem afterAdd_data {P : Params} {env : Env O} {s s' : Alg O} {ref : Option RefProposal} {v : ℚ}
    (h : afterAdd P env s ref v = .ok s') : s'.data = s.data := by
  unfold afterAdd at h
  split at h
  · split at h
    · cases h
    · split at h
      · cases h
      · split at h
        · cases h
        · rename_i h1
          have e := refinementUpdate_data h1
          cases h
          exact e
  · split at h <;> · cases h; rfl

theorem endPass_micros {P : Params} {env : Env O} {s s' : Alg O} (h : endPass P s = .ok s') :
    Micros P env s s' := by
  unfold endPass at h
  dsimp only at h
  split at h
  · cases h
  · cases h
    have e := stallingUpdate_data P { s with itercount := s.itercount + 1 }
    unfold phaseUpdate
    split
    · rename_i hc
      exact .tail (.ctrl e) (.phase hc.1 hc.2.1)
    · exact .ctrl e

theorem processPoint_micros {P : Params} {env : Env O} {s s' : Alg O} {loc loc' : Loc}
    {next : Option Pt} {ref : Option RefProposal}
    (h : processPoint P env s loc next ref = .ok (s', loc')) : Micros P env s s' := by
  unfold processPoint at h
  split at h
  · cases h; exact .ctrl (discardPoint_data P s)
  · rename_i p0
    dsimp only at h
    split at h
    · cases h
    · rename_i d hd
      split at h
      · cases h; exact .ctrl (discardPoint_data P s)
      · rename_i hlt
        split at h
        · cases h
        · rename_i r hr
          split at h
          · cases h
          · rename_i s1 hs1
            split at h
            · cases h
            · rename_i gap hgap
              split at h
              · cases h
              · rename_i s2 hs2
                have e := afterAdd_data hs2
                cases h
                refine .tail (.tail (.single (.add loc p0 d r hd (not_le.mp hlt) hr hs1))
                  (.log r.val gap)) (.ctrl ?_)
                exact e

theorem restorationSearch_micros {P : Params} {env : Env O} {s s' : Alg O} {q : Option Pt}
    (h : restorationSearch P env s = .ok (q, s')) : Micros P env s s' := by
  unfold restorationSearch at h
  split at h
  · cases h; exact .ctrl rfl
  · rename_i i p hl
    split at h
    · cases h
    · rename_i s1 h1
      cases h
      exact .tail (.ctrl (t := { s with opq := env.restOpq s }) rfl) (.removeRest i p s hl h1)

theorem localDispatch_micros {P : Params} {env : Env O} {s s' : Alg O} {lp : LocalProposal}
    {q : Option Pt} {ref : Option RefProposal}
    (h : localDispatch P env s lp = .ok (.go s' q ref)) : Micros P env s s' := by
  unfold localDispatch at h
  split at h
  · rename_i hc
    split at h
    · split at h
      · cases h
      · split at h
        · split at h
          · split at h
            · cases h
            · rename_i s1 h1
              cases h
              exact .single (.removeLocal _ hc.1 hc.2 h1)
          · cases h; exact .refl _
        · cases h
    · cases h; exact .refl _
  · cases h; exact .refl _

theorem eraseErr_frame (P : Params) (s : Alg O) (is : List ℕ) :
    ∃ e, eraseErr P s is = { s with cur := { s.cur with err := e } } := by
  unfold eraseErr
  split
  · exact ⟨_, rfl⟩
  · exact ⟨s.cur.err, rfl⟩

theorem eraseErr_micros {P : Params} {env : Env O} (s : Alg O) (is : List ℕ) :
    Micros P env s (eraseErr P s is) := by
  unfold eraseErr
  split
  · rename_i hc
    exact .single (.erase is hc.1 hc.2)
  · exact .refl _

theorem localDispatch_not_skip {P : Params} {env : Env O} {s s' : Alg O} {lp : LocalProposal} :
    localDispatch P env s lp ≠ .ok (.skip s') := by
  intro h
  unfold localDispatch at h
  split at h
  · split at h
    · split at h
      · cases h
      · split at h
        · split at h
          · split at h <;> cases h
          · cases h
        · cases h
    · cases h
  · cases h

/-- State carried by a dispatch result. -/
def Dispatch.st : Dispatch O → Alg O
  | .go s _ _ => s
  | .skip s => s

theorem dispatch_micros {P : Params} {env : Env O} {s : Alg O} {d : Dispatch O}
    (h : dispatch P env s = .ok d) : Micros P env s d.st := by
  unfold dispatch at h
  split at h
  · split at h
    · cases h
    · cases h; exact .ctrl rfl
  · split at h
    · split at h
      · cases h
      · rename_i s1 h1
        have m1 := restorationSearch_micros h1
        split at h
        · cases h; exact .tail m1 (.ctrl rfl)
        · split at h
          · cases h
          · rename_i s2 h2
            cases h; exact .tail m1 (.restart h2)
      · rename_i p s1 h1
        have m1 := restorationSearch_micros h1
        cases h; exact m1
    · split at h
      · split at h
        · cases h
        · rename_i lp o _
          cases d with
          | go s' q r =>
            have m : Micros P env s { s with opq := o } := .ctrl rfl
            exact (m.trans (eraseErr_micros _ _)).trans (localDispatch_micros h)
          | skip s' => exact absurd h localDispatch_not_skip
      · split at h
        · split at h
          · cases h
          · cases h; exact .ctrl rfl
        · split at h
          · cases h
          · cases h; exact .ctrl rfl

theorem restartIfNeeded_micros {P : Params} {env : Env O} {s s' : Alg O}
    (h : restartIfNeeded P env s = .ok s') : Micros P env s s' := by
  unfold restartIfNeeded at h
  split at h
  · exact .single (.restart h)
  · cases h; exact .refl _

/-- Every pass is a sequence of elementary changes. -/
theorem pass_micros {P : Params} {env : Env O} {s s' : Alg O} {loc loc' : Loc}
    (h : pass P env s loc = .ok (s', loc')) : Micros P env s s' := by
  unfold pass at h
  dsimp only at h
  have m0 : Micros P env s { s with passes := s.passes + 1 } := .ctrl rfl
  split at h
  · cases h; exact .tail m0 (.ctrl rfl)
  · split at h
    · cases h
    · rename_i s1 h1
      have m1 := m0.trans (restartIfNeeded_micros h1)
      split at h
      · cases h
      · rename_i o ho
        have m2 : Micros P env s { s1 with opq := o } := .tail m1 (.ctrl rfl)
        split at h
        · cases h
        · rename_i s2 h2
          cases h
          exact .tail m2 (.ctrl (buildModel_data h2))
        · rename_i s2 h2
          have m3 := m2.tail (.ctrl (buildModel_data h2))
          split at h
          · cases h
          · rename_i s3 h3
            cases h
            exact m3.trans (dispatch_micros h3)
          · rename_i s3 next ref h3
            have m4 := m3.trans (dispatch_micros h3)
            split at h
            · cases h
            · rename_i s4 loc4 h4
              have m5 := m4.trans (processPoint_micros h4)
              split at h
              · cases h
              · rename_i s5 h5
                cases h
                exact m5.trans (endPass_micros h5)

theorem serialStart_micros {P : Params} {env : Env O} {s s' : Alg O} {loc : Loc}
    (h : serialStart P env s = .ok (s', loc)) : Micros P env s s' := by
  unfold serialStart at h
  split at h
  · cases h
  · rename_i s1 h1
    split at h
    · cases h
    · cases h
      unfold firstRestart at h1
      split at h1
      · exact .single (.restart h1)
      · cases h1; exact .refl _

/-- Every reachable state is reached from the constructor by elementary changes. -/
theorem Reach.micros {P : Params} {env : Env O} {o : O} {c : Ctl} {s : Alg O}
    (h : Reach P env o c s) : Micros P env (Alg.init P o) s := by
  induction h with
  | init => exact .refl _
  | call _ _ hs ih => exact ih.trans (serialStart_micros hs)
  | pass _ _ hp ih => exact ih.trans (pass_micros hp)
  | ret _ _ ih => exact .tail ih (.ctrl rfl)
  | load _ ih => exact ih

/-- Invariants over elementary changes. -/
theorem Micros.inv {P : Params} {env : Env O} {I : Alg O → Prop} {s t : Alg O}
    (hm : ∀ s t, I s → Micro P env s t → I t) (hs : I s) (h : Micros P env s t) : I t := by
  induction h with
  | refl => exact hs
  | tail _ hstep ih => exact hm _ _ ih hstep

theorem Reach.inv {P : Params} {env : Env O} {o : O} {I : Alg O → Prop} {c : Ctl} {s : Alg O}
    (h : Reach P env o c s) (h0 : I (Alg.init P o)) (hm : ∀ s t, I s → Micro P env s t → I t) :
    I s := Micros.inv hm h0 h.micros

end Rbfopt
