import Verif.Spec.Discarded
import Verif.Spec.Parallel

/-!
# Specification: which of the recent searches of a parallel run were wasted

In a parallel run the outcome of a search is known when its result arrives: either the proposed point is sent
to a worker for evaluation, or it is given up, or the value of an old record is taken over.
-/

namespace Rbfopt

variable {O : Type}

/-- The outcomes of the searches since the last restart (`true`: given up, `false`: sent for evaluation), oldest
first, after a step that led from `s` to `s'`, if they were `h` before.  A search has ended if there is one less
outstanding; a search whose result was taken from an old record leaves no trace. -/
def searchOutcomes (s s' : PState O) (h : List Bool) : List Bool :=
  if s'.alg.nAtRestart = s.alg.nAtRestart then
    if s'.searches.length + 1 = s.searches.length then
      if s.subs.length < s'.subs.length then h ++ [false]
      else if s'.alg.all.pos.length = s.alg.all.pos.length then h ++ [true]
      else h
    else h
  else []

/-- `PHistory P env pe o c s h`: a parallel run, in which no exception was raised, can be in state `s` with
control at `c`, and the searches since the last restart had the outcomes `h`. -/
inductive PHistory (P : Params) (env : Env O) (pe : PEnv O) (o : O) : PCtl → PState O → List Bool → Prop
  | init : PHistory P env pe o .idle { alg := Alg.init P o } []
  | call {s s' : PState O} {h : List Bool} (pause : ℕ) : PHistory P env pe o .idle s h →
      PStart P env pe s s' → (∀ e, s'.pc ≠ .raised e) →
      PHistory P env pe o (.running s.alg.itercount pause) s' (if s.alg.itercount = 0 then [] else h)
  | step {s s' : PState O} {start pause : ℕ} {h : List Bool} :
      PHistory P env pe o (.running start pause) s h → PStep P env pe start pause s s' →
      (∀ e, s'.pc ≠ .raised e) →
      PHistory P env pe o (.running start pause) s' (searchOutcomes s s' h)
  | ret {s : PState O} {start pause : ℕ} {h : List Bool} :
      PHistory P env pe o (.running start pause) s h → s.pc = .done →
      PHistory P env pe o .idle
        { s with alg := { s.alg with elapsed := s.alg.elapsed + env.callTime s.alg } } h
  | load {s : PState O} {start pause : ℕ} {h : List Bool} :
      PHistory P env pe o (.running start pause) s h → PHistory P env pe o .idle s.lose h

end Rbfopt
