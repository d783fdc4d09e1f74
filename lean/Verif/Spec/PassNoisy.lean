import Verif.Spec.Restart
import Verif.Model.Serial

/-!
# What one iteration of a two-phase run may do (C98)
-/

namespace Rbfopt

variable {O : Type}

/-- `TakenOut P s A N q`: records `A` and nodes `N` are what is left when the node to be evaluated again,
if any, has been taken out; `q` is the point to be evaluated again. -/
inductive TakenOut (P : Params) (s : Alg O) : Table → List Pt → Option Pt → Prop
  | nothing : TakenOut P s s.all s.cur.pos none
  | node {k : ℕ} {q : Pt} (h2 : P.twoPhase = true) (hm : s.mode = .accurate)
      (hs : s.step = P.localStep) (hk : s.cur.pos[k]? = some q) :
      TakenOut P s (s.all.eraseIdx (s.nAtRestart + k)) (s.cur.pos.eraseIdx k) (some q)

/-- The noisy value `x` (lowered by its error) might be an improvement of at least `eps_impr` on the least
current value `m`, or might reach the target. -/
def MayImprove (P : Params) (m : EVal) (x : ℚ) : Prop :=
  Improves P (x : EVal) m ∨ x ≤ P.target + P.epsOpt * |P.target|

/-- `Obtained P env s x v b e calls`: with the records of `s`, the value `v` at the point `x`, which is noisy
(with error interval `e`) or not according to `b`, was obtained by the calls `calls` of the black box. -/
inductive Obtained (P : Params) (env : Env O) (s : Alg O) (x : Pt) :
    ℚ → Bool → ℚ × ℚ → List Call → Prop
  /-- `evaluate()` in accurate mode; there is no old record near, or a closest one is noisy. -/
  | accurate {v : ℚ} (hm : s.mode = .accurate)
      (hold : (∀ j q, OldRecord s j q → P.epsZero ≤ env.dist x q) ∨
        ∃ j q, NearestWithin env P.epsZero s x j q ∧ s.all.noisy[j]? = some true) :
      Obtained P env s x v false (0, 0) [.acc (env.decode x) v]
  /-- The value of the closest old record is used again. -/
  | reused {v : ℚ} {b : Bool} {e : ℚ × ℚ} {j : ℕ} {q : Pt}
      (hq : NearestWithin env P.epsZero s x j q) (hv : s.all.val[j]? = some v)
      (hb : s.all.noisy[j]? = some b) (hm : s.mode = .accurate → b = false)
      (he : b = false → e = (0, 0)) (hi : b = true → ¬ MayImprove P s.fmin (v + e.1)) :
      Obtained P env s x v b e []
  /-- Noisy mode: `evaluate_noisy()`, and its value is no improvement. -/
  | noisy {v : ℚ} {e : ℚ × ℚ} (hm : s.mode = .noisy)
      (hold : ∀ j q, OldRecord s j q → P.epsZero ≤ env.dist x q)
      (hi : ¬ MayImprove P s.fmin (v + e.1)) :
      Obtained P env s x v true e [.noisy (env.decode x) v e.1 e.2]
  /-- Noisy mode: `evaluate_noisy()`, then `evaluate()` because the noisy value may be an improvement. -/
  | both {v w : ℚ} {e : ℚ × ℚ} (hm : s.mode = .noisy)
      (hold : ∀ j q, OldRecord s j q → P.epsZero ≤ env.dist x q) (hi : MayImprove P s.fmin (w + e.1)) :
      Obtained P env s x v false (0, 0) [.noisy (env.decode x) w e.1 e.2, .acc (env.decode x) v]
  /-- Noisy mode: an old noisy value is found, and `evaluate()` is called because it may be an
  improvement (judged with the error `e` of another evaluation). -/
  | oldThenAccurate {v w : ℚ} {e : ℚ × ℚ} {j : ℕ} {q : Pt} (hm : s.mode = .noisy)
      (hq : NearestWithin env P.epsZero s x j q) (hv : s.all.val[j]? = some w)
      (hb : s.all.noisy[j]? = some true) (hi : MayImprove P s.fmin (w + e.1)) :
      Obtained P env s x v false (0, 0) [.acc (env.decode x) v]

end Rbfopt
