import Verif.Model.Serial
import Verif.Model.Problem

/-!
# Problems in which every variable is fixed
-/

namespace Rbfopt

/-- rbfopt_algorithm.py:780-787: the branch of `optimize` for a problem without free variables,
followed by the common end of `optimize` (792-812).  `decode` of the environment is the decoding
of `objfun`. -/
def optimizeAllFixed {O : Type} (env : Env O) (I : Internal) (s : Alg O) : OptRes O :=
  let (v, s1) := objfun env s I.lower
  let s2 := addNode s1 I.lower I.lower v
  optimizeReturn { s2 with evalcount := s2.evalcount + 1 }

/-- rbfopt_algorithm.py:779-791: `optimize` with one processor, choosing the branch. -/
def optimizeTop {O : Type} (P : Params) (env : Env O) (I : Internal) (fuel pause : ℕ)
    (s : Alg O) : OptRes O :=
  if P.n = 0 ∧ I.fixed ≠ [] then optimizeAllFixed env I s
  else optimize P env fuel pause s

end Rbfopt
