import Verif.Model.Parallel
import Verif.Spec.Records

/-!
# Reachable states of the parallel engine

A state of the engine is reachable if it occurs in some history of calls of `optimize` with several
CPUs, under some schedule of the workers.
-/

namespace Rbfopt

variable {O : Type}

/-- Outside a call, or inside a call that started at iteration `start`. -/
inductive PCtl
  | idle
  | running (start pause : ℕ)
  deriving DecidableEq

/-- Reachability for the parallel engine.  A call may end normally; or with an exception of the black box
in a worker (or of the sampling), after which the user calls `optimize()` again on the same object; or
be abandoned at any time and the object loaded again as it was then.  In the last two cases the
outstanding evaluations are lost. -/
inductive PReach (P : Params) (env : Env O) (pe : PEnv O) (o : O) : PCtl → PState O → Prop
  | init : PReach P env pe o .idle { alg := Alg.init P o }
  | call {s s' : PState O} (pause : ℕ) : PReach P env pe o .idle s → PStart P env pe s s' →
      PReach P env pe o (.running s.alg.itercount pause) s'
  | step {s s' : PState O} {start pause : ℕ} : PReach P env pe o (.running start pause) s →
      PStep P env pe start pause s s' → PReach P env pe o (.running start pause) s'
  | ret {s : PState O} {start pause : ℕ} : PReach P env pe o (.running start pause) s →
      s.pc = .done →
      PReach P env pe o .idle
        { s with alg := { s.alg with elapsed := s.alg.elapsed + env.callTime s.alg } }
  | load {s : PState O} {start pause : ℕ} : PReach P env pe o (.running start pause) s →
      (∀ e, s.pc ≠ .raised e) →
      PReach P env pe o .idle s.lose
  | raises {s t : PState O} {start pause : ℕ} : PReach P env pe o (.running start pause) s →
      PCut P env pe s t → PReach P env pe o .idle t.lose
  | firstRaises {s t : PState O} : PReach P env pe o .idle s → P.refFreq ≠ 0 →
      s.alg.itercount = 0 → RestartParCut P env pe s.fresh t → PReach P env pe o .idle t.lose

/-- The main loop is running: neither shut down nor stopped by an exception. -/
def PC.Active : PC → Prop
  | .closing _ | .done | .raised _ => False
  | _ => True

/-- Numbers of the evaluations that are outstanding or finished. -/
def PState.jobIds (s : PState O) : List ℕ := s.evals.map (fun x => x.id) ++ s.hist.map (fun x => x.1)

/-- The evaluation number `id` was submitted for the point `x` in mode `noisy` and returned `v` with
error interval `e`. -/
def PState.Returned (s : PState O) (pe : PEnv O) (id : ℕ) (x : Pt) (noisy : Bool) (tag : Tag) (v : ℚ)
    (e : ℚ × ℚ) : Prop :=
  s.subs[id]? = some (x, noisy, tag) ∧
    (if noisy then pe.noisyRes id = (v, e.1, e.2) else pe.acc id = v ∧ e = (0, 0))

/-- Number of submitted evaluations in noisy (`b = true`) or accurate mode. -/
def PState.numSubs (s : PState O) (b : Bool) : ℕ := s.subs.countP (fun x => x.2.1 == b)

/-- Where the value `v` recorded at `p` with noisy flag `b` comes from: a submitted evaluation at `p`
that has been collected (`late`: an initial evaluation collected after the initialization is recorded
at a transformed point, see C70), an evaluation or a value of a point given by the user, or a record
of a point less than `eps_zero` away. -/
inductive PSource (P : Params) (env : Env O) (pe : PEnv O) (s : PState O) : Pt → ℚ → Bool → Prop
  | job {p : Pt} {v : ℚ} {b nb : Bool} {id : ℕ} {tag : Tag} {e : ℚ × ℚ} :
      (id, Fate.recorded) ∈ s.hist → s.Returned pe id p nb tag v e → (nb = true → b = true) →
      PSource P env pe s p v b
  | late {x : Pt} {v : ℚ} {b : Bool} {id : ℕ} {e : ℚ × ℚ} :
      (id, Fate.recorded) ∈ s.hist → s.Returned pe id x b .init v e →
      PSource P env pe s (env.toOrig x) v b
  | userEval {p : Pt} {v : ℚ} : p ∈ P.initPos → Call.acc (env.decode p) v ∈ s.alg.log →
      PSource P env pe s p v false
  | userVal {p : Pt} {v : ℚ} (i : ℕ) : P.initPos[i]? = some p → P.initVal[i]? = some v →
      PSource P env pe s p v false
  | near {p q : Pt} {v : ℚ} {b : Bool} : PSource P env pe s q v b → env.dist p q < P.epsZero →
      PSource P env pe s p v b

/-- States of a call of `optimize()` started in state `s0`. -/
inductive CallReach (P : Params) (env : Env O) (pe : PEnv O) (o : O) (s0 : PState O) (pause : ℕ) :
    PState O → Prop
  | start {s : PState O} : PReach P env pe o .idle s0 → PStart P env pe s0 s →
      CallReach P env pe o s0 pause s
  | step {s s' : PState O} : CallReach P env pe o s0 pause s →
      PStep P env pe s0.alg.itercount pause s s' → CallReach P env pe o s0 pause s'

end Rbfopt
