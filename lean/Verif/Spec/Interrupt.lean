import Verif.Model.Interrupt
import Verif.Spec.Reach

/-!
# Reachable states with interrupted calls

`IReach` extends `Reach`: a call of `optimize()` may also end with an exception of the black box (or of
the sampling), after which the user calls `optimize()` again on the same object.
-/

namespace Rbfopt

variable {O : Type}

/-- Reachability with interrupted calls; `lost` lists all calls of the black box that returned a result
that was dropped because of an exception. -/
inductive IReach (P : Params) (env : Env O) (o : O) : Ctl → Alg O → List Call → Prop
  | init : IReach P env o .idle (Alg.init P o) []
  | call {s s' : Alg O} {loc : Loc} {lost : List Call} (pause : ℕ) :
      IReach P env o .idle s lost → serialStart P env s = .ok (s', loc) →
      IReach P env o (.running s.itercount pause loc) s' lost
  | callRaises {s t : Alg O} {lost new : List Call} :
      IReach P env o .idle s lost → s.itercount = 0 → RestartCut P env s t new →
      IReach P env o .idle t (lost ++ new)
  | pass {s s' : Alg O} {start pause : ℕ} {loc loc' : Loc} {lost : List Call} :
      IReach P env o (.running start pause loc) s lost → loopCond P env start pause s loc = true →
      pass P env s loc = .ok (s', loc') → IReach P env o (.running start pause loc') s' lost
  | passRaises {s t : Alg O} {start pause : ℕ} {loc : Loc} {lost new : List Call} :
      IReach P env o (.running start pause loc) s lost → loopCond P env start pause s loc = true →
      PassCut P env s loc t new → IReach P env o .idle t (lost ++ new)
  | ret {s : Alg O} {start pause : ℕ} {loc : Loc} {lost : List Call} :
      IReach P env o (.running start pause loc) s lost → loopCond P env start pause s loc = false →
      IReach P env o .idle { s with elapsed := s.elapsed + env.callTime s } lost
  | load {s : Alg O} {start pause : ℕ} {loc : Loc} {lost : List Call} :
      IReach P env o (.running start pause loc) s lost → IReach P env o .idle s lost

end Rbfopt
