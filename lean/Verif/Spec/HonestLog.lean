import Verif.Model.State

/-!
# Specification: the list of calls is what the black box answered
-/

namespace Rbfopt

variable {O : Type}

/-- The call carries the answer of the black box, given the calls made before. -/
def Call.AnsweredBy (env : Env O) (before : List Call) : Call → Prop
  | .acc x v => v = env.evalAcc before x
  | .noisy x v el eu => (v, el, eu) = env.evalNoisy before x

/-- Every entry of the list of calls carries the answer the black box gives at that point, after the
calls listed before. -/
def HonestLog (env : Env O) (log : List Call) : Prop :=
  ∀ (k : ℕ) (call : Call), log[k]? = some call → call.AnsweredBy env (log.take k)

end Rbfopt
