import Verif.Model.State

/-! # Sources of recorded values, in user terms -/

namespace Rbfopt

variable {O : Type}

/-- `q` is reached from `p` by jumps each shorter than `eps` (no jump at all if `q = p`): the
reuse of values of records that the code regards as the same point. -/
inductive NearChain (env : Env O) (eps : ℚ) : Pt → Pt → Prop
  | refl (p : Pt) : NearChain env eps p p
  | jump {p q r : Pt} : env.dist p q < eps → NearChain env eps q r → NearChain env eps p r

/-- The user supplied value `v` for the initial point `p`. -/
def UserGave (P : Params) (p : Pt) (v : ℚ) : Prop :=
  ∃ i : ℕ, P.initPos[i]? = some p ∧ P.initVal[i]? = some v

/-- `evaluate()` returned `v` when called for the internal point `p`. -/
def Evaluated (env : Env O) (log : List Call) (p : Pt) (v : ℚ) : Prop :=
  Call.acc (env.decode p) v ∈ log

/-- `evaluate_noisy()` returned `v` when called for the internal point `p`. -/
def EvaluatedNoisy (env : Env O) (log : List Call) (p : Pt) (v : ℚ) : Prop :=
  ∃ el eu, Call.noisy (env.decode p) v el eu ∈ log

end Rbfopt
