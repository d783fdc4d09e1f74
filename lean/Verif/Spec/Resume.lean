import Verif.Model.Serial

/-! # Specification vocabulary for pausing and resuming -/

namespace Rbfopt

variable {O : Type}

/-- Two calls of `optimize()` have the same outcome: they raise the same exception, or return the
same quintuple and leave objects that differ at most in the recorded elapsed time. -/
def SameOutcome : OptRes O → OptRes O → Prop
  | .raised e, .raised e' => e = e'
  | .ret r, .ret r' => r.value = r'.value ∧ r.point = r'.point ∧ r.itercount = r'.itercount ∧
      r.evalcount = r'.evalcount ∧ r.noisyEvalcount = r'.noisyEvalcount ∧
      r'.final = { r.final with elapsed := r'.final.elapsed }
  | _, _ => False

end Rbfopt
