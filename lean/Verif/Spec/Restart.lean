import Verif.Model.State

/-! # Specification vocabulary for restarts and reuse -/

namespace Rbfopt

variable {O : Type}

/-- The restart rule as documented (settings `max_fraction_discarded`, `discarded_window_size`,
`max_stalled_iterations`): at the beginning of a cycle, when too many of the recent points were
discarded, or when stalled for long enough with enough evaluations and cycles left. -/
def RestartDue (P : Params) (s : Alg O) : Prop :=
  s.step ≤ P.firstStep ∧
    (((s.discarded.length : ℚ) ≥ (P.discWindow : ℚ) / 2 ∧
      ((s.discarded.count true : ℕ) : ℚ) ≥ P.maxFracDisc * (s.discarded.length : ℚ)) ∨
     (s.numStalled ≥ P.maxStalled ∧
      s.evalcount + 3 * (P.n + 1 + (P.numGlobal + 2)) < P.maxEval ∧ s.cyc < (P.maxCycles : ℤ) - 1))

/-- `new` improves on the reference value by the required relative amount `eps_impr`. -/
def Improves (P : Params) (new : EVal) (ref : EVal) : Prop :=
  ∃ r : ℚ, ref = (r : EVal) ∧ new ≤ ((r - P.epsImpr * max 1 |r| : ℚ) : EVal)

/-- `q` is the `j`-th record made before the last restart. -/
def OldRecord (s : Alg O) (j : ℕ) (q : Pt) : Prop := j < s.nAtRestart ∧ s.all.pos[j]? = some q

/-- The `j`-th record `q` is a nearest old record of `p`, at distance less than `eps`. -/
def NearestWithin (env : Env O) (eps : ℚ) (s : Alg O) (p : Pt) (j : ℕ) (q : Pt) : Prop :=
  OldRecord s j q ∧ env.dist p q < eps ∧ ∀ j' q', OldRecord s j' q' → env.dist p q ≤ env.dist p q'

/-- The list without the positions in `rem`. -/
def dropPositions {α : Type} (l : List α) (rem : List ℕ) : List α :=
  (l.zipIdx.filter (fun x => decide (x.2 ∉ rem))).map Prod.fst

end Rbfopt
