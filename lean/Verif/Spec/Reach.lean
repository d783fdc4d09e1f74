import Verif.Model.Serial

/-!
# Reachable states of the serial engine

The states an `RbfoptAlgorithm` object can be in, at the moments a user can observe it: after
construction, after the initialization done by a call of `optimize`, after each pass of the main
loop, and after each call.  Calls may follow each other with arbitrary pause lengths.  A call may
also be abandoned between two passes and continued by a new call: this is what happens when the
process dies and the state saved by the main loop is loaded again (see `Model/Persist.lean`).
Calls that end with an exception of the black box are the subject of `Spec/Interrupt.lean`.
-/

namespace Rbfopt

variable {O : Type}

/-- Where control is: outside `optimize`, or inside a call that started at iteration `start` with
the given `pause_after_iters` and local variables `loc`. -/
inductive Ctl
  | idle
  | running (start pause : ℕ) (loc : Loc)

/-- Reachability, see the file header. -/
inductive Reach (P : Params) (env : Env O) (o : O) : Ctl → Alg O → Prop
  | init : Reach P env o .idle (Alg.init P o)
  | call {s s' : Alg O} {loc : Loc} (pause : ℕ) :
      Reach P env o .idle s → serialStart P env s = .ok (s', loc) →
      Reach P env o (.running s.itercount pause loc) s'
  | pass {s s' : Alg O} {start pause : ℕ} {loc loc' : Loc} :
      Reach P env o (.running start pause loc) s → loopCond P env start pause s loc = true →
      pass P env s loc = .ok (s', loc') → Reach P env o (.running start pause loc') s'
  | ret {s : Alg O} {start pause : ℕ} {loc : Loc} :
      Reach P env o (.running start pause loc) s → loopCond P env start pause s loc = false →
      Reach P env o .idle { s with elapsed := s.elapsed + env.callTime s }
  | load {s : Alg O} {start pause : ℕ} {loc : Loc} :
      Reach P env o (.running start pause loc) s → Reach P env o .idle s

end Rbfopt
