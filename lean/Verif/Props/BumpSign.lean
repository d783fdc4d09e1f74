import Verif.Model.BumpSign
import Verif.Props.Bump
import Mathlib.Tactic.IntervalCases
import Mathlib.Tactic.Ring
import Mathlib.Tactic.NormNum

/-!
# C86: the sign of the bumpiness
-/

namespace Rbfopt

variable {coef coef' : List ℚ → List ErrRow → List ℚ} {Phi Phi' : List (List ℚ)} {epsZero target : ℚ}

/-- The bumpiness of an interpolant with coefficients `lam`: `(-1)^(degree + 1) λᵀ Φ λ`, as in the
optimization models (`C56_min_bump_objective`). -/
def signedBump (t : Rbf) (lam : List ℚ) (Phi : List (List ℚ)) : ℚ :=
  (-1) ^ (degreePolynomial t + 1).toNat * dotForm lam Phi

/-- The coefficients the code computes for the eligible node `i` moved to the target: the intervals of
`i` and of the eligible nodes before it are zero (`C55`). -/
def movedCoef (coef : List ℚ → List ErrRow → List ℚ) (epsZero target : ℚ) (vals : List ℚ)
    (errs : List ErrRow) (i : ℕ) : List ℚ :=
  coef (vals.set i target)
    (zeroRows errs (i :: (bumpNodes epsZero target vals errs).filter (· < i)))

theorem signedBump_degree0 {t : Rbf} (ht : degreePolynomial t = 0) (lam : List ℚ)
    (Phi : List (List ℚ)) : signedBump t lam Phi = -dotForm lam Phi := by
  simp [signedBump, ht]

theorem signedBump_other {t : Rbf} (ht : degreePolynomial t ≠ 0) (lam : List ℚ)
    (Phi : List (List ℚ)) : signedBump t lam Phi = dotForm lam Phi := by
  cases t <;> simp_all [signedBump, degreePolynomial]

/-- **C86** (holds for the cubic, thin plate spline and Gaussian RBF) The node selected for re-evaluation
has the smallest bumpiness among the eligible nodes. -/
theorem C86_selects_least_bumpy {t : Rbf} (ht : degreePolynomial t ≠ 0) (vals : List ℚ)
    (errs : List ErrRow) {i j : ℕ}
    (hi : (minBumpNodeCode coef Phi epsZero target vals errs).index = some i)
    (hj : Eligible epsZero target vals errs j) :
    Eligible epsZero target vals errs i ∧
    signedBump t (movedCoef coef epsZero target vals errs i) Phi ≤
      signedBump t (movedCoef coef epsZero target vals errs j) Phi := by
  obtain ⟨-, -, h1, h2⟩ := C55_selection (bump := fun v e => dotForm (coef v e) Phi)
    (epsZero := epsZero) (target := target) vals errs
  obtain ⟨he, hb⟩ := h1 i hi
  have := h2 j hj
  rw [hb] at this
  refine ⟨he, ?_⟩
  rw [signedBump_other ht, signedBump_other ht]
  exact_mod_cast this

/-- **C86** (violated part) For the linear and multiquadric RBF the sign is missing: the node selected
has the *largest* bumpiness among the eligible nodes. -/
theorem C86_violated_selects_most_bumpy {t : Rbf} (ht : degreePolynomial t = 0) (vals : List ℚ)
    (errs : List ErrRow) {i j : ℕ}
    (hi : (minBumpNodeCode coef Phi epsZero target vals errs).index = some i)
    (hj : Eligible epsZero target vals errs j) :
    Eligible epsZero target vals errs i ∧
    signedBump t (movedCoef coef epsZero target vals errs j) Phi ≤
      signedBump t (movedCoef coef epsZero target vals errs i) Phi := by
  obtain ⟨-, -, h1, h2⟩ := C55_selection (bump := fun v e => dotForm (coef v e) Phi)
    (epsZero := epsZero) (target := target) vals errs
  obtain ⟨he, hb⟩ := h1 i hi
  have := h2 j hj
  rw [hb] at this
  refine ⟨he, ?_⟩
  rw [signedBump_degree0 ht, signedBump_degree0 ht]
  have : dotForm (movedCoef coef epsZero target vals errs i) Phi ≤
      dotForm (movedCoef coef epsZero target vals errs j) Phi := by exact_mod_cast this
  linarith

/-- **C86** The proposed point is not near a node and a node is re-evaluated instead: for the cubic, thin
plate spline and Gaussian RBF, the interpolant through the proposed point is bumpier than the one with
the selected node moved; for the linear and multiquadric RBF it is *less* bumpy. -/
theorem C86_new_point {t : Rbf} {minDist : ℚ} {vals : List ℚ} {errs : List ErrRow} {i : ℕ}
    {next : Bool} {dists : List ℚ} {noisy : List Bool} {c : ℕ} {d : ℚ}
    (hi : (minBumpNodeCode coef Phi epsZero target vals errs).index = some i)
    (h : reevaluationChoice minDist (minBumpNodeCode coef Phi epsZero target vals errs).index
      (minBumpNodeCode coef Phi epsZero target vals errs).bump next dists
      (bumpNewNode coef' Phi' vals errs target) noisy = some c)
    (hd : dists[c]? = some d) (hfar : minDist < d) :
    (degreePolynomial t ≠ 0 → signedBump t (movedCoef coef epsZero target vals errs i) Phi <
      signedBump t (coef' (vals ++ [target]) (errs ++ [(0, 0)])) Phi') ∧
    (degreePolynomial t = 0 → signedBump t (coef' (vals ++ [target]) (errs ++ [(0, 0)])) Phi' <
      signedBump t (movedCoef coef epsZero target vals errs i) Phi) := by
  obtain ⟨-, -, d', hd', -, -, hlt⟩ := C69_reevaluation h
  rw [hd] at hd'
  cases hd'
  have hlt := hlt hfar
  obtain ⟨-, -, h1, -⟩ := C55_selection (bump := fun v e => dotForm (coef v e) Phi)
    (epsZero := epsZero) (target := target) vals errs
  obtain ⟨-, hb⟩ := h1 i hi
  have hb' : (minBumpNodeCode coef Phi epsZero target vals errs).bump =
      ((dotForm (movedCoef coef epsZero target vals errs i) Phi : ℚ) : EVal) := hb
  rw [hb'] at hlt
  have hlt' : dotForm (movedCoef coef epsZero target vals errs i) Phi <
      dotForm (coef' (vals ++ [target]) (errs ++ [(0, 0)])) Phi' := by
    unfold bumpNewNode at hlt
    exact_mod_cast hlt
  refine ⟨fun ht => ?_, fun ht => ?_⟩
  · rw [signedBump_other ht, signedBump_other ht]; exact hlt'
  · rw [signedBump_degree0 ht, signedBump_degree0 ht]; linarith

/-! ## A concrete case: the linear RBF on the nodes 0, 1, 2 -/

/-- The coefficients of `s(x) = ∑ λ_j |x - j| + h` with `∑ λ_j = 0` through three values. -/
def splineCoef (v : List ℚ) (_ : List ErrRow) : List ℚ :=
  [(v.getD 1 0 - v.getD 0 0) / 2, (v.getD 2 0 - 2 * v.getD 1 0 + v.getD 0 0) / 2,
    -(v.getD 2 0 - v.getD 1 0) / 2]

/-- The matrix of the distances. -/
def splinePhi : List (List ℚ) := [[0, 1, 2], [1, 0, 1], [2, 1, 0]]

/-- `splineCoef` are the coefficients of the linear RBF: they sum to zero, and the function differs from
the given values by a constant. -/
theorem splineCoef_ok (v : List ℚ) (e : List ErrRow) :
    (splineCoef v e).sum = 0 ∧ ∃ h : ℚ, ∀ i < 3,
      ((List.range 3).map (fun j => (splineCoef v e).getD j 0 * (splinePhi.getD i []).getD j 0)).sum + h =
        v.getD i 0 := by
  refine ⟨by simp [splineCoef]; ring, (v.getD 2 0 + v.getD 0 0) / 2, fun i hi => ?_⟩
  interval_cases i <;> simp [splineCoef, splinePhi, List.range_succ] <;> ring

/-- Values 0, 0, 0 with intervals `[-1, 1]`, target -1: moving node 0 or node 2 gives the bumpiness 1/2,
moving node 1 gives 1; the code selects node 1. -/
example : (minBumpNodeCode splineCoef splinePhi 0 (-1) [0, 0, 0] [(-1, 1), (-1, 1), (-1, 1)]).index =
      some 1 ∧
    signedBump .linear (splineCoef [-1, 0, 0] []) splinePhi = 1/2 ∧
    signedBump .linear (splineCoef [0, -1, 0] []) splinePhi = 1 ∧
    signedBump .linear (splineCoef [0, 0, -1] []) splinePhi = 1/2 ∧
    bumpNodes 0 (-1) [0, 0, 0] [(-1, 1), (-1, 1), (-1, 1)] = [0, 1, 2] := by
  decide +kernel

end Rbfopt
