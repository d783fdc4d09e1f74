import Verif.Model.Serial

/-!
# Calls of `optimize()` that end with an exception of the black box

`evaluate()` or `evaluate_noisy()` may raise (an error of the user's code, `KeyboardInterrupt`, …), and
`initialize_nodes()` raises `RuntimeError` if it finds no good sample.  Nothing in
`rbfopt_algorithm.py` catches these exceptions: they leave `optimize()`, and the object keeps the
attributes assigned so far.  The relations below describe this state of the object.  `lost` lists the
calls that had returned and whose results are dropped; the call that raised is not listed.
Simplification: the behaviour of the black box depends on the calls that returned, not on those that
raised.
-/

namespace Rbfopt

variable {O : Type}

/-- State after rbfopt_algorithm.py:1838-1841, the first assignments of `restart`. -/
def restartEnter (s : Alg O) : Alg O :=
  { s with
    numNoisyRestarts := s.numNoisyRestarts + (if s.mode = .noisy then 1 else 0)
    nAtRestart := s.all.pos.length }

/-- An exception in `restart` (rbfopt_algorithm.py:1809-2001, `pool=None`).  The evaluations of the
sample are counted only after all of them returned (lines 1869, 1909), and all records are made at the
end (2003-2014), so that nothing is recorded. -/
inductive RestartCut (P : Params) (env : Env O) (s : Alg O) : Alg O → List Call → Prop
  /-- lines 1846-1850: `initialize_nodes` fails -/
  | noSample {e : PyErr} : s.itercount > 0 ∨ P.doInit = true →
      env.initNodes (restartEnter s) = .error e → RestartCut P env s (restartEnter s) []
  /-- lines 1865-1868: `evaluate()` raises at the sample point number `k` -/
  | accurate {pts : List Pt} {o : O} {r : Removal} (k : ℕ) : s.itercount > 0 ∨ P.doInit = true →
      env.initNodes (restartEnter s) = .ok (pts, o) →
      removeExistingIf P env { restartEnter s with opq := o } pts = some r →
      restartAccurate P { restartEnter s with opq := o } = true → k < r.pos.length →
      RestartCut P env s (evalList env { restartEnter s with opq := o } (r.pos.take k)).2
        ((evalList env { restartEnter s with opq := o } (r.pos.take k)).2.log.drop s.log.length)
  /-- lines 1905-1908: `evaluate_noisy()` raises at the sample point number `k` -/
  | noisy {pts : List Pt} {o : O} {r : Removal} (k : ℕ) : s.itercount > 0 ∨ P.doInit = true →
      env.initNodes (restartEnter s) = .ok (pts, o) →
      removeExistingIf P env { restartEnter s with opq := o } pts = some r →
      restartAccurate P { restartEnter s with opq := o } = false → k < r.pos.length →
      RestartCut P env s (evalNoisyList env { restartEnter s with opq := o } (r.pos.take k)).2
        ((evalNoisyList env { restartEnter s with opq := o } (r.pos.take k)).2.log.drop s.log.length)
  /-- lines 1983-1986: `evaluate()` raises at the user's point number `k` -/
  | user {t : Table} {s1 : Alg O} (k : ℕ) : restartSample P env (restartEnter s) = .ok (t, s1) →
      P.initPos ≠ [] → s.itercount = 0 → P.initVal.length < P.initPos.length →
      k < ((selectUser P env t.pos).filterMap (fun i => P.initPos[i]?)).length →
      RestartCut P env s
        (evalList env s1 (((selectUser P env t.pos).filterMap (fun i => P.initPos[i]?)).take k)).2
        ((evalList env s1 (((selectUser P env t.pos).filterMap
          (fun i => P.initPos[i]?)).take k)).2.log.drop s.log.length)

/-- An exception during the evaluation of a new point (rbfopt_algorithm.py:1105-1141). -/
inductive EvalCut (P : Params) (env : Env O) (s : Alg O) (loc : Loc) (orig : Pt) :
    Alg O → List Call → Prop
  /-- line 1115 -/
  | accurate : s.mode = .accurate → reuseAcc P env s orig = none → EvalCut P env s loc orig s []
  /-- line 1129 -/
  | noisy : s.mode = .noisy → reuseNoisy P env s orig = none → EvalCut P env s loc orig s []
  /-- line 1137: the accurate evaluation after a noisy one; the noisy result is dropped -/
  | again {e : ℚ × ℚ} : s.mode = .noisy → (noisyFirst P env s loc orig).isNoisy = true →
      (noisyFirst P env s loc orig).err = some e →
      requireAccurate P (noisyFirst P env s loc orig).s
        ((noisyFirst P env s loc orig).val + e.1) = true →
      EvalCut P env s loc orig
        (updateLog (noisyFirst P env s loc orig).s (noisyFirst P env s loc orig).val loc.gap)
        ((noisyFirst P env s loc orig).s.log.drop s.log.length)

/-- The pass does not skip its step (rbfopt_algorithm.py:861-866). -/
def NotSkipped (P : Params) (s : Alg O) : Prop :=
  ¬((s.step = P.infStep ∧ P.doInf = false) ∨ (s.step = P.localStep ∧ P.doLocal = false))

/-- An exception in one pass of the main loop (rbfopt_algorithm.py:859-1187). -/
inductive PassCut (P : Params) (env : Env O) (s : Alg O) (loc : Loc) : Alg O → List Call → Prop
  /-- line 880 -/
  | restart {t : Alg O} {lost : List Call} : NotSkipped P s → shouldRestart P s = true →
      RestartCut P env { s with passes := s.passes + 1 } t lost → PassCut P env s loc t lost
  /-- line 1044: the restart after a failed restoration -/
  | restoration {s1 s2 s3 t : Alg O} {o : O} {lost : List Call} : NotSkipped P s →
      restartIfNeeded P env { s with passes := s.passes + 1 } = .ok s1 → env.prep s1 = .ok o →
      buildModel P env { s1 with opq := o } = .ok (s2, false) → s2.step = P.restorationStep →
      restorationSearch P env s2 = .ok (none, s3) →
      ¬(P.n + 1 ≤ s3.cur.pos.length ∧ s3.solveUnder = false) →
      RestartCut P env s3 t lost → PassCut P env s loc t lost
  /-- lines 1105-1141 -/
  | eval {s1 s2 s3 t : Alg O} {o : O} {p0 : Pt} {ref : Option RefProposal} {d : ℚ}
      {lost : List Call} : NotSkipped P s →
      restartIfNeeded P env { s with passes := s.passes + 1 } = .ok s1 → env.prep s1 = .ok o →
      buildModel P env { s1 with opq := o } = .ok (s2, false) →
      dispatch P env s2 = .ok (.go s3 (some p0) ref) →
      getMinDistance env.dist (clipPt p0 P.lLower P.lUpper) s3.cur.pos = some d → P.minDist < d →
      EvalCut P env s3 loc (env.toOrig (clipPt p0 P.lLower P.lUpper)) t lost →
      PassCut P env s loc t lost

end Rbfopt
